import Verif.Props.DmhPlaced
import Verif.Spec.DmRoundTrip

/-!
# C87: `conv_surf_to_dm_cmd` and `dmhtoph` agree on where the actuators are
-/

namespace Coralign.Props

open Coralign Coralign.Spec

theorem surfCoord_strictMono (n : ℕ) (c : ℝ) (h : 0 < c) : StrictMono (surfCoord n c) := by
  intro a b hab
  have : (a : ℝ) < b := by exact_mod_cast hab
  unfold surfCoord
  split <;> exact div_lt_div_of_pos_right (by linarith) h

theorem surfCoord_centred (n : ℕ) (c : ℝ) (p : ℤ) (h : 0 ≤ (n : ℤ) / 2 + p) : surfCoord n c ((n : ℤ) / 2 + p).toNat = p / c := by
  have e : ((((n : ℤ) / 2 + p).toNat : ℕ) : ℝ) = (((n : ℤ) / 2 : ℤ) : ℝ) + p := by
    have : ((((n : ℤ) / 2 + p).toNat : ℕ) : ℤ) = (n : ℤ) / 2 + p := Int.toNat_of_nonneg h
    have : (((((n : ℤ) / 2 + p).toNat : ℕ) : ℤ) : ℝ) = (((n : ℤ) / 2 + p : ℤ) : ℝ) := by rw [this]
    rw [Int.cast_natCast] at this
    rw [this, Int.cast_add]
  unfold surfCoord
  rw [e]
  split
  · next hn =>
    have : (2 * ((n : ℤ) / 2) : ℤ) = n := by omega
    have : ((2 * ((n : ℤ) / 2) : ℤ) : ℝ) = n := by rw [this]; simp
    rw [Int.cast_mul] at this
    congr 1
    push_cast at this ⊢
    linarith
  · next hn =>
    have : (2 * ((n : ℤ) / 2) + 1 : ℤ) = n := by omega
    have : ((2 * ((n : ℤ) / 2) + 1 : ℤ) : ℝ) = n := by rw [this]; simp
    rw [Int.cast_add, Int.cast_mul] at this
    congr 1
    push_cast at this ⊢
    linarith

/-- The array that the code samples. -/
noncomputable def undone (R : Rotate) (surf : Arr2 ℝ) (dm : DmCal) : Arr2 ℝ :=
  R.run dm.thact (if dm.flipx = true then surf.fliplr else surf)

theorem undone_nr (R : Rotate) (surf : Arr2 ℝ) (dm : DmCal) : (undone R surf dm).nr = surf.nr := by
  unfold undone; rw [R.nr]; split <;> rfl

theorem undone_nc (R : Rotate) (surf : Arr2 ℝ) (dm : DmCal) : (undone R surf dm).nc = surf.nc := by
  unfold undone; rw [R.nc]; split <;> rfl

/-- With every actuator on a pixel the code fits the pixels under the actuators. -/
theorem conv_aligned (S : Spline) (R : Rotate) (L : SpSolve) (surf : Arr2 ℝ) (dm : DmCal) (n P : ℕ) (hm : MirrorOk S dm n P) (dx dy : ℤ)
    (hdx : dm.dx = dx) (hdy : dm.dy = dy) (row col : ℕ → ℤ) (hon : OnPixels dm n row col) (h4 : 4 ≤ surf.nr ∧ 4 ≤ surf.nc)
    (hin : ∀ i j, i < n → j < n → Reaches surf.nr surf.nc (row i + dy) (col j + dx)) :
    convSurfToDmCmd S R L surf dm =
      fitDm S L ⟨n, n, fun i j => (undone R surf dm).zext (surf.nr / 2 + (row i + dy)) (surf.nc / 2 + (col j + dx))⟩ dm.inf P := by
  obtain ⟨m1, m2, m3, m4, m5, m6, m7, m8, m9, m10, m11, m12⟩ := hm
  have hn : n = dm.nact.toNat := by omega
  subst hn
  have hP : (0 : ℝ) < P := by exact_mod_cast m7
  unfold convSurfToDmCmd
  rw [if_neg (by push Not; exact ⟨m3, m4, m5, by omega, by rw [m6]; exact hP⟩), if_neg (by simpa using m8)]
  change (if (undone R surf dm).nr < 4 ∨ (undone R surf dm).nc < 4 then _ else _) = _
  rw [undone_nr, undone_nc, if_neg (by omega)]
  have hp : dm.pitch / (dm.pitch / dm.ppactD) = (P : ℝ) := by rw [m6]; field_simp
  unfold fitDm
  simp only [hp]
  congr 1
  funext A
  congr 1
  congr 1
  funext i j
  have hb := hin i j i.isLt j.isLt
  have hr : dmAxis dm.nact.toNat i + dm.dy / dm.ppactCy = surfCoord (undone R surf dm).nr dm.ppactCy ((surf.nr : ℤ) / 2 + (row i + dy)).toNat := by
    rw [undone_nr, surfCoord_centred _ _ _ hb.1.1, hdy]
    unfold dmAxis
    rw [← hon.row i i.isLt]
    push_cast
    ring
  have hc : dmAxis dm.nact.toNat j + dm.dx / dm.ppactCx = surfCoord (undone R surf dm).nc dm.ppactCx ((surf.nc : ℤ) / 2 + (col j + dx)).toNat := by
    rw [undone_nc, surfCoord_centred _ _ _ hb.2.1, hdx]
    unfold dmAxis
    rw [← hon.col j j.isLt]
    push_cast
    ring
  have hb' : Reaches (undone R surf dm).nr (undone R surf dm).nc (row i + dy) (col j + dx) := by rw [undone_nr, undone_nc]; exact hb
  have e1 : ((undone R surf dm).nr : ℤ) / 2 = (surf.nr : ℤ) / 2 := by rw [undone_nr]
  have e2 : ((undone R surf dm).nc : ℤ) / 2 = (surf.nc : ℤ) / 2 := by rw [undone_nc]
  have hz := zext_in (a := undone R surf dm) (i := surf.nr / 2 + (row i + dy)) (j := surf.nc / 2 + (col j + dx))
    (by rw [undone_nr, undone_nc]; exact hb)
  rw [hz]
  change S.eval (surfCoord (undone R surf dm).nr dm.ppactCy) (surfCoord (undone R surf dm).nc dm.ppactCx) (undone R surf dm)
    (dmAxis dm.nact.toNat i + dm.dy / dm.ppactCy) (dmAxis dm.nact.toNat j + dm.dx / dm.ppactCx) = _
  rw [hr, hc]
  exact S.interpolates _ _ (undone R surf dm) ⟨((surf.nr : ℤ) / 2 + (row i + dy)).toNat, _⟩ ⟨((surf.nc : ℤ) / 2 + (col j + dx)).toNat, _⟩
    (surfCoord_strictMono _ _ m5) (surfCoord_strictMono _ _ m4)

/-- The array that the code samples, pixel by pixel, for arrays of odd size. -/
theorem undone_at {R : Rotate} (hR : R.Exact) (surf : Arr2 ℝ) (dm : DmCal) (h1 : surf.nr % 2 = 1) (h2 : surf.nc % 2 = 1) (r c p q : ℤ)
    (hb : Reaches surf.nr surf.nc r c)
    (hp : (p : ℝ) = Real.cos (dm.thact * Real.pi / 180) * r + Real.sin (dm.thact * Real.pi / 180) * c)
    (hq : (q : ℝ) = -(Real.sin (dm.thact * Real.pi / 180) * r) + Real.cos (dm.thact * Real.pi / 180) * c) :
    (undone R surf dm).zext (surf.nr / 2 + r) (surf.nc / 2 + c) =
      surf.zext (surf.nr / 2 + p) (surf.nc / 2 + (if dm.flipx = true then -q else q)) := by
  unfold undone
  cases hf : dm.flipx with
  | false =>
    simp only [Bool.false_eq_true, if_false]
    exact rotate_centred hR dm.thact surf h1 h2 r c p q hb hp hq
  | true =>
    simp only [if_true]
    refine (rotate_centred hR dm.thact surf.fliplr h1 h2 r c p q hb hp hq).trans ?_
    rw [fliplr_zext]
    congr 1
    change (surf.nc : ℤ) - 1 - ((surf.nc : ℤ) / 2 + q) = (surf.nc : ℤ) / 2 + -q
    omega

/-- When the registration commutes, the code reads the surface where the actuator appears. -/
theorem undone_appears {R : Rotate} (hR : R.Exact) (surf : Arr2 ℝ) (dm : DmCal) (h1 : surf.nr % 2 = 1) (h2 : surf.nc % 2 = 1) (dx dy : ℤ)
    (hc : Commutes dm.flipx dm.thact dx dy) (u v k l : ℤ) (hb : Reaches surf.nr surf.nc (u + dy) (v + dx))
    (hat : AppearsAt dm.flipx dm.thact dx dy u v k l) :
    (undone R surf dm).zext (surf.nr / 2 + (u + dy)) (surf.nc / 2 + (v + dx)) = surf.zext (surf.nr / 2 + k) (surf.nc / 2 + l) := by
  obtain ⟨hl, hk⟩ := hat
  rcases hc with ⟨hth, hdx⟩ | ⟨hf, rfl, rfl⟩
  · rw [hth, zero_mul, zero_div, Real.cos_zero, Real.sin_zero] at hl hk
    rw [undone_at hR surf dm h1 h2 (u + dy) (v + dx) (u + dy) (v + dx) hb
      (by rw [hth, zero_mul, zero_div, Real.cos_zero, Real.sin_zero]; push_cast; ring)
      (by rw [hth, zero_mul, zero_div, Real.cos_zero, Real.sin_zero]; push_cast; ring)]
    have ek : k = u + dy := by
      have : (k : ℝ) = ((u + dy : ℤ) : ℝ) := by rw [hk]; push_cast; ring
      exact_mod_cast this
    have el : l = if dm.flipx = true then -(v + dx) else v + dx := by
      have : (l : ℝ) = ((if dm.flipx = true then -(v + dx) else v + dx : ℤ) : ℝ) := by
        rw [hl]
        split
        · next hf => rw [hdx hf]; push_cast; ring
        · push_cast; ring
      exact_mod_cast this
    rw [ek, el]
  · rw [undone_at hR surf dm h1 h2 (u + 0) (v + 0) k l hb, hf, if_neg (by simp)]
    · rw [hk, hf, if_neg (by simp)]; push_cast; ring
    · rw [hl, hf, if_neg (by simp)]; push_cast; ring

/-- At an actuator the facesheet is the surface that the fit works with. -/
theorem facesheet_actuator (cmd w : Arr2 ℝ) (P : ℕ) (i j : ℕ) : facesheet cmd w P (P * (i : ℤ)) (P * (j : ℤ)) = surfaceAt cmd w P i j := by
  unfold facesheet surfaceAt influenceAt
  refine Finset.sum_congr rfl fun a _ => Finset.sum_congr rfl fun b _ => ?_
  rw [mul_sub, mul_sub]

theorem dmPos_actuator (n P : ℕ) (hP : 1 ≤ P) (i : ℕ) : dmPos n P (P * (i : ℤ)) = (i : ℝ) - ((n : ℝ) - 1) / 2 := by
  have : (P : ℝ) ≠ 0 := by positivity
  unfold dmPos
  push_cast
  field_simp

/-- **C87 (partial).** The commands returned for a surface make that surface: `dmhtoph`, with the same registration, gives it back at every
actuator.  Proved where every actuator appears on a pixel of the surface and the parts of the registration commute.  Missing: registrations
whose parts do not commute, for which the claim is false (`C87_flip_offset_fails`, `C87_flip_turn_fails`, `C87_turn_offset_fails`), and
surfaces with an even number of columns (`C87_even_fails`). -/
theorem C87_reproduces_partial (S : Spline) (R : Rotate) (hR : R.Exact) (L : SpSolve) (surf : Arr2 ℝ) (dm : DmCal) (n P : ℕ)
    (hm : MirrorOk S dm n P) (dx dy : ℤ) (hdx : dm.dx = dx) (hdy : dm.dy = dy) (hc : Commutes dm.flipx dm.thact dx dy) (row col : ℕ → ℤ)
    (hon : OnPixels dm n row col) (h1 : surf.nr % 2 = 1) (h2 : surf.nc % 2 = 1) (h4 : 4 ≤ surf.nr ∧ 4 ≤ surf.nc)
    (hin : ∀ i j, i < n → j < n → Reaches surf.nr surf.nc (row i + dy) (col j + dx)) :
    ∃ cmd, convSurfToDmCmd S R L surf dm = .ok cmd ∧ cmd.nr = n ∧ cmd.nc = n ∧
      ∀ (T : Shift) (out : Arr2 ℝ),
        dmhtoph S R T surf.nr surf.nc cmd dm.nact dm.inf P dm.ppactCx dm.ppactCy dm.dx dm.dy dm.thact dm.flipx = .ok out →
        ∀ (i j : ℕ) (k l : ℤ), i < n → j < n → AppearsAt dm.flipx dm.thact dx dy (row i) (col j) k l → Reaches surf.nr surf.nc k l →
          2 * |(k : ℝ)| ≤ Real.sqrt 2 * (n + dm.inf.nr / P) * max dm.ppactCx dm.ppactCy →
          2 * |(l : ℝ)| ≤ Real.sqrt 2 * (n + dm.inf.nr / P) * max dm.ppactCx dm.ppactCy →
          out.centered k l = surf.centered k l := by
  rw [conv_aligned S R L surf dm n P hm dx dy hdx hdy row col hon h4 hin]
  obtain ⟨cmd, e1, e2, e3, e4⟩ := C45_reproduces_partial S L n n hm.some hm.some
    (fun i j => (undone R surf dm).zext (surf.nr / 2 + (row i + dy)) (surf.nc / 2 + (col j + dx))) dm.inf P hm.sampled hm.odd
    (by rw [← hm.square]; exact hm.odd) (hm.enough.imp id fun h => ⟨h, by rw [← hm.square]; exact h⟩) hm.regular hm.symmetric
  refine ⟨cmd, e1, e2, e3, fun T out hok i j k l hi hj hat hkl hk hl => ?_⟩
  rw [hdx, hdy, hm.nact] at hok
  rw [C62_placed S R hR T surf.nr surf.nc cmd n dm.inf P dm.ppactCx dm.ppactCy dm.thact dx dy dm.flipx out hok (row i) (col j) (P * (i : ℤ))
    (P * (j : ℤ)) k l ((hon.row i hi).trans (dmPos_actuator n P hm.sampled i).symm)
    ((hon.col j hj).trans (dmPos_actuator n P hm.sampled j).symm) hat hkl (by push_cast; exact hk) (by push_cast; exact hl),
    facesheet_actuator, zext_centered hkl]
  congr 1
  have := e4 ⟨i, hi⟩ ⟨j, hj⟩
  simp only at this
  rw [this, undone_appears hR surf dm h1 h2 dx dy hc (row i) (col j) k l (hin i j hi hj) hat]

/-- **C87 (partial).** Conversely, the commands are recovered from the surface that `dmhtoph` makes of them, with the same registration. -/
theorem C87_round_trip_partial (S : Spline) (R : Rotate) (hR : R.Exact) (T : Shift) (L : SpSolve) (cmd surf : Arr2 ℝ) (dm : DmCal) (n P : ℕ)
    (hm : MirrorOk S dm n P) (dx dy : ℤ) (hdx : dm.dx = dx) (hdy : dm.dy = dy) (hc : Commutes dm.flipx dm.thact dx dy) (row col : ℕ → ℤ)
    (hon : OnPixels dm n row col) (h1 : surf.nr % 2 = 1) (h2 : surf.nc % 2 = 1) (h4 : 4 ≤ surf.nr ∧ 4 ≤ surf.nc)
    (hin : ∀ i j, i < n → j < n → Reaches surf.nr surf.nc (row i + dy) (col j + dx) ∧
      ∃ k l : ℤ, AppearsAt dm.flipx dm.thact dx dy (row i) (col j) k l ∧ Reaches surf.nr surf.nc k l ∧
        2 * |(k : ℝ)| ≤ Real.sqrt 2 * (n + dm.inf.nr / P) * max dm.ppactCx dm.ppactCy ∧
        2 * |(l : ℝ)| ≤ Real.sqrt 2 * (n + dm.inf.nr / P) * max dm.ppactCx dm.ppactCy)
    (hok : dmhtoph S R T surf.nr surf.nc cmd dm.nact dm.inf P dm.ppactCx dm.ppactCy dm.dx dm.dy dm.thact dm.flipx = .ok surf) :
    convSurfToDmCmd S R L surf dm = .ok cmd := by
  rw [conv_aligned S R L surf dm n P hm dx dy hdx hdy row col hon h4 fun i j hi hj => (hin i j hi hj).1]
  rw [hdx, hdy, hm.nact] at hok
  have A := dmh_args hok
  obtain ⟨b1, b2⟩ := A.shape
  obtain ⟨n1, n2, y⟩ := cmd
  simp only at b1 b2
  have b1' : n1 = n := by exact_mod_cast b1
  have b2' : n2 = n := by exact_mod_cast b2
  subst b1' b2'
  rw [← C45_round_trip_partial S L n2 n2 hm.some hm.some y dm.inf P hm.sampled hm.odd (by rw [← hm.square]; exact hm.odd)
    (hm.enough.imp id fun h => ⟨h, by rw [← hm.square]; exact h⟩) hm.regular hm.symmetric]
  congr 2
  funext i j
  obtain ⟨hb, k, l, hat, hkl, hk, hl⟩ := hin i j i.isLt j.isLt
  have := C62_placed S R hR T surf.nr surf.nc _ n2 dm.inf P dm.ppactCx dm.ppactCy dm.thact dx dy dm.flipx surf hok (row i) (col j) (P * ((i : ℕ) : ℤ))
    (P * ((j : ℕ) : ℤ)) k l ((hon.row i i.isLt).trans (dmPos_actuator n2 P hm.sampled i).symm)
    ((hon.col j j.isLt).trans (dmPos_actuator n2 P hm.sampled j).symm) hat hkl (by push_cast; exact hk) (by push_cast; exact hl)
  rw [facesheet_actuator, zext_centered hkl] at this
  rw [undone_appears hR surf dm h1 h2 dx dy hc (row i) (col j) k l hb hat]
  exact Option.some.inj this

end Coralign.Props
