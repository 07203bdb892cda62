import Verif.Props.GainMap

/-!
# C31, C32: the conversions between the reference points

`Props/GainMap.lean` uses only that scipy's cubic interpolant passes through its data.  Here one more fact of its documentation is used:
data taken from one polynomial of degree at most three is interpolated by that polynomial (there is only one "not-a-knot" cubic spline
through given data, and a single cubic is one).  With four reference commands any data is of this kind.
-/

namespace Coralign.Props
open Coralign

section
variable {K : Type} [Field K] [LinearOrder K] [IsStrictOrderedRing K]

/-- The contract: cubic data is interpolated exactly. -/
def Reproduces (I : CubicInterp K) : Prop :=
  ∀ (x y : List K) (q a b c d : K), x.length = y.length → 4 ≤ x.length → x.Nodup → InRange x q →
    (∀ p ∈ x.zip y, p.2 = a + b * p.1 + c * p.1 ^ 2 + d * p.1 ^ 3) → I.run x y q = .ok (a + b * q + c * q ^ 2 + d * q ^ 3)

/-- Specification: actuator `(i, j)` was calibrated as `height = a + b * command` at every reference command. -/
def LinearActuator (cube : Arr3 K) (v : List K) (i j : ℕ) (a b : K) : Prop := cube.column i j = .ok (v.map fun c => a + b * c)

theorem zip_map_self (v : List K) (f : K → K) : ∀ p ∈ v.zip (v.map f), p.2 = f p.1 := by
  intro p hp
  rw [List.zip_map_right] at hp
  obtain ⟨q, hq, rfl⟩ := List.mem_map.mp hp
  obtain ⟨k, hk, rfl⟩ := List.mem_iff_getElem.mp hq
  simp

theorem zip_map_self' (v : List K) (f : K → K) : ∀ p ∈ (v.map f).zip v, p.1 = f p.2 := by
  intro p hp
  rw [List.zip_map_left] at hp
  obtain ⟨q, hq, rfl⟩ := List.mem_map.mp hp
  obtain ⟨k, hk, rfl⟩ := List.mem_iff_getElem.mp hq
  simp

/-- **C31.** An actuator whose height is a cubic polynomial of the command has exactly that height at every command in range, not only at
the reference commands.
Partial: square grids only, see `C31_nonsquare_never_works`. -/
theorem C31_cubic_heights_partial (I : CubicInterp K) (hI : Reproduces I) (n : ℕ) (cube : Arr3 K) (v : List K) (h : RefData cube v n)
    (a b c d : Fin n → Fin n → K)
    (hcal : ∀ i j : Fin n, cube.column i j = .ok (v.map fun u => a i j + b i j * u + c i j * u ^ 2 + d i j * u ^ 3))
    (cmd : Fin n → Fin n → K) (hr : ∀ i j, InRange v (cmd i j)) :
    heightsForCommands I ⟨n, n, cmd⟩ cube v =
      .ok ⟨n, n, fun i j => a i j + b i j * cmd i j + c i j * cmd i j ^ 2 + d i j * cmd i j ^ 3⟩ := by
  obtain ⟨o, h1, h2⟩ := heights_eq I n cmd cube v h hr
  rw [h1]
  congr 2
  funext i j
  obtain ⟨col, e1, e2⟩ := h2 i j
  obtain rfl := Except.ok.inj (e1.symm.trans (hcal i j))
  rw [hI v _ (cmd i j) (a i j) (b i j) (c i j) (d i j) (by simp) h.four h.verified.2.2 (hr i j) (zip_map_self v _)] at e2
  exact (Except.ok.inj e2).symm

theorem inRange_map {v : List K} {q a b : K} (hb : b ≠ 0) (h : InRange v q) : InRange (v.map fun c => a + b * c) (a + b * q) := by
  obtain ⟨⟨x, hx, hxq⟩, ⟨y, hy, hqy⟩⟩ := h
  rcases lt_or_gt_of_ne hb with hb | hb
  · exact ⟨⟨_, List.mem_map.mpr ⟨y, hy, rfl⟩, by nlinarith⟩, ⟨_, List.mem_map.mpr ⟨x, hx, rfl⟩, by nlinarith⟩⟩
  · exact ⟨⟨_, List.mem_map.mpr ⟨x, hx, rfl⟩, by nlinarith⟩, ⟨_, List.mem_map.mpr ⟨y, hy, rfl⟩, by nlinarith⟩⟩

theorem nodup_affine {v : List K} {a b : K} (hb : b ≠ 0) (h : v.Nodup) : (v.map fun c => a + b * c).Nodup :=
  h.map fun x y hxy => mul_left_cancel₀ hb (add_left_cancel hxy)

/-- **C31.** For actuators whose height is linear in the command the two conversions undo each other at every command in range, in both
orders: heights to commands after commands to heights, and commands to heights after heights to commands.
Partial: square grids only, see `C31_nonsquare_never_works`; other calibrations come back exactly at the reference points only, see
`C31_round_trip_drifts`. -/
theorem C31_linear_round_trip_partial (I : CubicInterp K) (hI : Reproduces I) (n : ℕ) (cube : Arr3 K) (v : List K) (h : RefData cube v n)
    (a b : Fin n → Fin n → K) (hb : ∀ i j, b i j ≠ 0) (hcal : ∀ i j : Fin n, LinearActuator cube v i j (a i j) (b i j))
    (cmd hgt : Fin n → Fin n → K) (hr : ∀ i j, InRange v (cmd i j)) (hh : ∀ i j, hgt i j = a i j + b i j * cmd i j) :
    heightsForCommands I ⟨n, n, cmd⟩ cube v = .ok ⟨n, n, hgt⟩ ∧ commandsForHeights I ⟨n, n, hgt⟩ cube v = .ok ⟨n, n, cmd⟩ := by
  constructor
  · have := C31_cubic_heights_partial I hI n cube v h a b (fun _ _ => 0) (fun _ _ => 0)
      (fun i j => by rw [hcal i j]; congr 1; exact List.map_congr_left fun u _ => by ring) cmd hr
    rw [this]
    congr 2
    funext i j
    rw [hh]; ring
  · obtain ⟨o, h1, h2⟩ := commands_eq I n hgt cube v h fun i j =>
      ⟨_, hcal i j, nodup_affine (hb i j) h.verified.2.2, by rw [hh]; exact inRange_map (hb i j) (hr i j)⟩
    rw [h1]
    congr 2
    funext i j
    obtain ⟨col, e1, e2⟩ := h2 i j
    obtain rfl := Except.ok.inj (e1.symm.trans (hcal i j))
    rw [hI _ v (hgt i j) (-(a i j) / b i j) (1 / b i j) 0 0 (by simp) (by simpa using h.four)
      (nodup_affine (hb i j) h.verified.2.2) (by rw [hh]; exact inRange_map (hb i j) (hr i j))
      (fun p hp => by rw [zip_map_self' v (fun c => a i j + b i j * c) p hp]; have := hb i j; field_simp; ring)] at e2
    rw [← Except.ok.inj e2, hh]
    have := hb i j
    field_simp
    ring

/-- **C32.** For actuators whose height grows linearly with the command the starting command is the flat command plus the requested
height over the gain, moved into the range of the reference commands; so it never leaves that range, and is not altered inside it.
Partial: square grids and linear actuators only; see `C32_overshoot` for what a curved calibration does. -/
theorem C32_linear_partial (I : CubicInterp K) (hI : Reproduces I) (n : ℕ) (cube : Arr3 K) (v : List K) (h : RefData cube v n)
    (a b : Fin n → Fin n → K) (hb : ∀ i j, 0 < b i j) (hcal : ∀ i j : Fin n, LinearActuator cube v i j (a i j) (b i j))
    (flat delta : Fin n → Fin n → K) (hf : ∀ i j, InRange v (flat i j)) (first last : K) (h0 : v.head? = some first)
    (h1 : v.getLast? = some last) :
    startingCommands I ⟨n, n, flat⟩ ⟨n, n, delta⟩ cube v =
      .ok ⟨n, n, fun i j => max first (min (flat i j + delta i j / b i j) last)⟩ := by
  obtain ⟨fh, clipped, e1, e2, e3⟩ := starting_unfold I n cube v h flat delta hf
  have hfh := (C31_linear_round_trip_partial I hI n cube v h a b (fun i j => (hb i j).ne') hcal flat
    (fun i j => a i j + b i j * flat i j) hf fun _ _ => rfl).1
  have hfh' : fh = fun i j => a i j + b i j * flat i j := by
    rw [e1] at hfh
    have := Except.ok.inj hfh
    simpa using this
  have hfl : first ≤ last := by
    have hm := List.mem_of_getLast? h1
    obtain ⟨k, hk, ek⟩ := List.mem_iff_getElem.mp hm
    rw [List.head?_eq_getElem?, List.getElem?_eq_getElem (by omega)] at h0
    rw [← Option.some.inj h0, ← ek]
    rcases Nat.eq_zero_or_pos k with rfl | hk0
    · exact le_rfl
    · exact (List.pairwise_iff_getElem.mp h.inc 0 k (by omega) hk hk0).le
  rw [e2]
  refine (C31_linear_round_trip_partial I hI n cube v h a b (fun i j => (hb i j).ne') hcal _ clipped ?_ ?_).2
  · intro i j
    exact ⟨⟨first, List.mem_of_head? h0, le_max_left _ _⟩, ⟨last, List.mem_of_getLast? h1, max_le hfl (min_le_right _ _)⟩⟩
  · intro i j
    obtain ⟨col, lo, hi, c1, c2, c3, c4⟩ := e3 i j
    obtain rfl := Except.ok.inj (c1.symm.trans (hcal i j))
    rw [List.head?_map, h0] at c2
    rw [List.getLast?_map, h1] at c3
    obtain rfl := Option.some.inj c2
    obtain rfl := Option.some.inj c3
    have hbp := hb i j
    have hle : a i j + b i j * first ≤ a i j + b i j * last := by nlinarith
    rw [c4, clipHeight_eq _ _ _ hle, hfh']
    unfold clampTo
    have : a i j + b i j * flat i j + delta i j = a i j + b i j * (flat i j + delta i j / b i j) := by
      have := hbp.ne'
      field_simp
      try ring
    rw [this]
    have mono : Monotone fun u : K => a i j + b i j * u := fun x y hxy => by
      show a i j + b i j * x ≤ a i j + b i j * y
      nlinarith
    rw [← mono.map_min, ← mono.map_max]

end

/-! ### Curved calibrations -/

/-- One actuator calibrated at the commands 0, 1, 2, 3 with height = command squared. -/
def squareCube : Arr3 ℚ := ⟨4, 1, 1, fun k _ _ => ([0, 1, 4, 9] : List ℚ).getD k 0⟩

/-- **C31.** Between the reference points the two conversions do not undo each other, even for an actuator whose height is the square of
the command (the usual behaviour of an electrostatic actuator): the command 3/2 gives the height 9/4, and for that height the command
435/256 is computed. -/
theorem C31_round_trip_drifts (I : CubicInterp ℚ) (hI : Reproduces I) :
    heightsForCommands I ⟨1, 1, fun _ _ => 3 / 2⟩ squareCube [0, 1, 2, 3] = .ok ⟨1, 1, fun _ _ => 9 / 4⟩ ∧
    commandsForHeights I ⟨1, 1, fun _ _ => 9 / 4⟩ squareCube [0, 1, 2, 3] = .ok ⟨1, 1, fun _ _ => 435 / 256⟩ := by
  have hd : RefData squareCube [0, 1, 2, 3] 1 := ⟨by decide +kernel, by decide, rfl, rfl, rfl⟩
  constructor
  · have := C31_cubic_heights_partial I hI 1 squareCube [0, 1, 2, 3] hd (fun _ _ => 0) (fun _ _ => 0) (fun _ _ => 1) (fun _ _ => 0)
      (by intro i j; fin_cases i; fin_cases j; decide +kernel) (fun _ _ => 3 / 2)
      (fun _ _ => ⟨⟨1, by decide +kernel, by norm_num⟩, ⟨2, by decide +kernel, by norm_num⟩⟩)
    rw [this]
    norm_num
  · have hin : InRange ([0, 1, 4, 9] : List ℚ) (9 / 4) := ⟨⟨1, by decide +kernel, by norm_num⟩, ⟨4, by decide +kernel, by norm_num⟩⟩
    have hcol : ∀ i j : Fin 1, squareCube.column i j = .ok [0, 1, 4, 9] := by
      intro i j; fin_cases i; fin_cases j; decide +kernel
    obtain ⟨o, h1, h2⟩ := commands_eq I 1 (fun _ _ => (9 / 4 : ℚ)) squareCube [0, 1, 2, 3] hd fun i j =>
      ⟨_, hcol i j, by decide +kernel, hin⟩
    rw [h1]
    congr 2
    funext i j
    obtain ⟨col, e1, e2⟩ := h2 i j
    obtain rfl := Except.ok.inj (e1.symm.trans (hcol i j))
    rw [hI [0, 1, 4, 9] [0, 1, 2, 3] (9 / 4) 0 (37 / 30) (-1 / 4) (1 / 60) (by decide) (by decide) (by decide +kernel) hin
      (by decide +kernel)] at e2
    rw [← Except.ok.inj e2]
    norm_num

/-- One actuator calibrated at the commands 0, 1, 2, 3, whose height grows slowly, then fast, then slowly: 0, 1, 30, 31. -/
def steepCube : Arr3 ℚ := ⟨4, 1, 1, fun k _ _ => ([0, 1, 30, 31] : List ℚ).getD k 0⟩

/-- **C32.** Clipping the heights does not keep the commands in range: for an actuator calibrated between the commands 0 and 3, with
heights increasing from 0 to 31, a request inside the calibrated heights (flat command 0 and 8 units up) is answered with a command
above 3, because the interpolant swings beyond its data. -/
theorem C32_overshoot (I : CubicInterp ℚ) (hI : Reproduces I) :
    ∃ o : ℚ, 3 < o ∧ startingCommands I ⟨1, 1, fun _ _ => 0⟩ ⟨1, 1, fun _ _ => 8⟩ steepCube [0, 1, 2, 3] = .ok ⟨1, 1, fun _ _ => o⟩ := by
  have hd : RefData steepCube [0, 1, 2, 3] 1 := ⟨by decide +kernel, by decide, rfl, rfl, rfl⟩
  have hcol : ∀ i j : Fin 1, steepCube.column i j = .ok [0, 1, 30, 31] := by
    intro i j; fin_cases i; fin_cases j; decide +kernel
  have hz : InRange ([0, 1, 2, 3] : List ℚ) 0 := ⟨⟨0, by decide +kernel, le_rfl⟩, ⟨0, by decide +kernel, le_rfl⟩⟩
  obtain ⟨fh, clipped, e1, e2, e3⟩ := starting_unfold I 1 steepCube [0, 1, 2, 3] hd (fun _ _ => 0) (fun _ _ => 8) fun _ _ => hz
  have hfh : fh = fun _ _ => 0 := by
    have := (C31_reference_points_partial I 1 steepCube [0, 1, 2, 3] hd (fun _ _ => 0) (fun _ _ => 0) (fun _ _ => 0)
      fun i j => ⟨rfl, _, hcol i j, rfl⟩).1
    rw [e1] at this
    simpa using Except.ok.inj this
  have hcl : clipped = fun _ _ => 8 := by
    funext i j
    obtain ⟨col, lo, hi, c1, c2, c3, c4⟩ := e3 i j
    obtain rfl := Except.ok.inj (c1.symm.trans (hcol i j))
    obtain rfl := Option.some.inj c2
    obtain rfl := Option.some.inj c3
    rw [c4, hfh]
    show clipHeight (0 : ℚ) 31 (0 + 8) = 8
    decide +kernel
  have hin : InRange ([0, 1, 30, 31] : List ℚ) 8 := ⟨⟨1, by decide +kernel, by norm_num⟩, ⟨30, by decide +kernel, by norm_num⟩⟩
  obtain ⟨o, h1, h2⟩ := commands_eq I 1 clipped steepCube [0, 1, 2, 3] hd fun i j =>
    ⟨_, hcol i j, by decide +kernel, by rw [hcl]; exact hin⟩
  refine ⟨o 0 0, ?_, ?_⟩
  · obtain ⟨col, c1, c2⟩ := h2 0 0
    obtain rfl := Except.ok.inj (c1.symm.trans (hcol 0 0))
    rw [hcl, hI [0, 1, 30, 31] [0, 1, 2, 3] 8 0 (14759 / 13485) (-1302 / 13485) (28 / 13485) (by decide) (by decide) (by decide +kernel) hin
      (by decide +kernel)] at c2
    rw [← Except.ok.inj c2]
    norm_num
  · rw [e2, h1]
    congr 2
    funext i j
    fin_cases i; fin_cases j; rfl

/-! ### The hypotheses can be met -/

open Polynomial in
/-- A routine that keeps the whole contract: polynomial interpolation through all nodes. -/
theorem Reproduces.nonempty {K : Type} [Field K] [LinearOrder K] [IsStrictOrderedRing K] : ∃ I : CubicInterp K, Reproduces I := by
  classical
  let P : List K → List K → K[X] := fun x y =>
    Lagrange.interpolate Finset.univ (fun k : Fin x.length => x[k]) fun k => y.getD k 0
  have node : ∀ x y (q v : K), x.Nodup → (q, v) ∈ x.zip y → (P x y).eval q = v := by
    intro x y q v hx hm
    obtain ⟨k, hk, ek⟩ := List.mem_iff_getElem.mp hm
    rw [List.length_zip] at hk
    rw [List.getElem_zip] at ek
    obtain ⟨rfl, rfl⟩ := Prod.mk.inj ek
    have := Lagrange.eval_interpolate_at_node (s := Finset.univ) (v := fun k : Fin x.length => x[k]) (fun k => y.getD k 0)
      (i := ⟨k, by omega⟩) (fun a _ b _ hab => Fin.ext ((List.Nodup.getElem_inj_iff hx).mp hab)) (Finset.mem_univ _)
    refine this.trans ?_
    show y.getD k 0 = _
    rw [List.getD_eq_getElem?_getD, List.getElem?_eq_getElem (by omega)]
    rfl
  let I : CubicInterp K := {
    run := fun x y q =>
      if x.length = y.length ∧ 4 ≤ x.length ∧ x.Nodup then
        if (∀ a ∈ x, q < a) ∨ ∀ a ∈ x, a < q then .error .valueError
        else .ok ((P x y).eval q)
      else .error .valueError
    bad := fun x y q h => by rw [if_neg h]
    outside := fun x y q h => by split_ifs <;> rfl
    inside := fun x y q h1 h2 h3 h4 h5 => by
      rw [if_pos ⟨h1, h2, h3⟩, if_neg]
      · exact ⟨_, rfl⟩
      · obtain ⟨a, ha, haq⟩ := h4
        obtain ⟨b, hb, hqb⟩ := h5
        rintro (h | h)
        · exact absurd (h a ha) (not_lt.mpr haq)
        · exact absurd (h b hb) (not_lt.mpr hqb)
    node := fun x y q v h1 h2 h3 h4 => by
      have hq : q ∈ x := (List.of_mem_zip h4).1
      rw [if_pos ⟨h1, h2, h3⟩, if_neg, node x y q v h3 h4]
      rintro (h | h)
      · exact absurd (h q hq) (lt_irrefl _)
      · exact absurd (h q hq) (lt_irrefl _) }
  refine ⟨I, fun x y q a b c d h1 h2 h3 h4 h5 => ?_⟩
  show (if x.length = y.length ∧ 4 ≤ x.length ∧ x.Nodup then
        if (∀ a ∈ x, q < a) ∨ ∀ a ∈ x, a < q then (.error .valueError : Res K)
        else .ok ((P x y).eval q)
      else .error .valueError) = _
  rw [if_pos ⟨h1, h2, h3⟩, if_neg]
  · have key : (C a + C b * X + C c * X ^ 2 + C d * X ^ 3 : K[X]) = P x y := by
      refine Lagrange.eq_interpolate_of_eval_eq (s := Finset.univ) (v := fun k : Fin x.length => x[k]) (fun k => y.getD k 0)
        (fun a _ b _ hab => Fin.ext ((List.Nodup.getElem_inj_iff h3).mp hab)) ?_ ?_
      · refine lt_of_le_of_lt (b := (3 : WithBot ℕ)) ?_ ?_
        · compute_degree
        · rw [Finset.card_univ, Fintype.card_fin]
          exact_mod_cast (show 3 < x.length by omega)
      · intro k _
        have hk : (x[k], y[(k : ℕ)]'(by omega)) ∈ x.zip y := by
          refine List.mem_iff_getElem.mpr ⟨k, by rw [List.length_zip]; omega, ?_⟩
          rw [List.getElem_zip]
          rfl
        have := h5 _ hk
        simp only at this
        simp only [eval_add, eval_mul, eval_C, eval_X, eval_pow]
        rw [← this, List.getD_eq_getElem?_getD, List.getElem?_eq_getElem (by omega)]
        rfl
    rw [← key]
    simp
  · obtain ⟨⟨a, ha, haq⟩, ⟨b, hb, hqb⟩⟩ := h4
    rintro (h | h)
    · exact absurd (h a ha) (not_lt.mpr haq)
    · exact absurd (h b hb) (not_lt.mpr hqb)

/-- A 2 by 2 mirror calibrated at five commands, with heights `5 + (i + j + 1) c`. -/
def straightCube : Arr3 ℚ := ⟨5, 2, 2, fun k i j => 5 + ((i : ℕ) + (j : ℕ) + 1) * ([0, 10, 20, 50, 100] : List ℚ).getD k 0⟩

/-- Commands 42, 17, 90, 1 come back through their heights, and a request far beyond the range ends at the last reference command. -/
example : ∃ I : CubicInterp ℚ, Reproduces I ∧
    commandsForHeights I ⟨2, 2, fun i j => 5 + ((i : ℕ) + (j : ℕ) + 1) * (![![42, 17], ![90, 1]] : Fin 2 → Fin 2 → ℚ) i j⟩ straightCube
      [0, 10, 20, 50, 100] = .ok ⟨2, 2, fun i j => (![![42, 17], ![90, 1]] : Fin 2 → Fin 2 → ℚ) i j⟩ ∧
    startingCommands I ⟨2, 2, fun _ _ => 42⟩ ⟨2, 2, fun i _ => if i = 0 then 6 else 10000⟩ straightCube [0, 10, 20, 50, 100] =
      .ok ⟨2, 2, fun i j => (![![48, 45], ![100, 100]] : Fin 2 → Fin 2 → ℚ) i j⟩ := by
  obtain ⟨I, hI⟩ := Reproduces.nonempty (K := ℚ)
  have hd : RefData straightCube [0, 10, 20, 50, 100] 2 := ⟨by decide +kernel, by decide, rfl, rfl, rfl⟩
  have hc : ∀ i j : Fin 2, LinearActuator straightCube [0, 10, 20, 50, 100] i j 5 ((i : ℕ) + (j : ℕ) + 1) := by
    intro i j
    fin_cases i <;> fin_cases j <;> (unfold LinearActuator; decide +kernel)
  have hin : ∀ q : ℚ, 0 ≤ q → q ≤ 100 → InRange ([0, 10, 20, 50, 100] : List ℚ) q := fun q h0 h1 =>
    ⟨⟨0, by decide +kernel, h0⟩, ⟨100, by decide +kernel, h1⟩⟩
  refine ⟨I, hI, (C31_linear_round_trip_partial I hI 2 straightCube _ hd (fun _ _ => 5) (fun i j => (i : ℕ) + (j : ℕ) + 1)
    (fun i j => by positivity) hc _ _ (fun i j => ?_) fun _ _ => rfl).2, ?_⟩
  · fin_cases i <;> fin_cases j <;> exact hin _ (by norm_num) (by norm_num)
  · rw [C32_linear_partial I hI 2 straightCube _ hd (fun _ _ => 5) (fun i j => (i : ℕ) + (j : ℕ) + 1) (fun i j => by positivity) hc _ _
      (fun _ _ => hin 42 (by norm_num) (by norm_num)) 0 100 rfl rfl]
    congr 2
    funext i j
    fin_cases i <;> fin_cases j <;> norm_num

end Coralign.Props
