import Verif.Model.AmpThreshC
import Verif.Props.AmpThresh
import Mathlib.Tactic.NormNum
import Mathlib.Tactic.FinCases

/-!
# Properties of `ampthresh` on complex maps (C12)
-/

namespace Coralign.Props
open Coralign

/-- The map is a complex retrieval proper: it has a pixel off the real axis, or it has no negative pixel. -/
def HasModulus (a : Arr2 ℂ) : Prop := (∃ i j v, a.px i j = some v ∧ v.im ≠ 0) ∨ ∀ i j v, a.px i j = some v → 0 ≤ v.re

theorem anyComplex_iff (a : Arr2 ℂ) : anyComplex a ↔ ∃ i j v, a.px i j = some v ∧ v.im ≠ 0 := by
  constructor
  · rintro ⟨i, j, h⟩
    exact ⟨(i : ℕ), (j : ℕ), _, Arr2.px_val a i j, h⟩
  · rintro ⟨i, j, v, h, hv⟩
    have hin := (Arr2.px_isSome a i j).mp (by rw [h]; rfl)
    rw [Arr2.px_of_inB a hin] at h
    exact ⟨_, _, by rw [Option.some.inj h]; exact hv⟩

/-- **C12** for complex maps: unless the map is real with negative pixels, the mask is that of its modulus. -/
theorem C12_modulus (a : Arr2 ℂ) (n : ℤ) (h : HasModulus a) : ampthreshC a n = ampthresh (a.map fun v : ℂ => ‖v‖) n := by
  unfold ampthreshC
  split
  · rfl
  · next hn =>
    have hp := h.resolve_left (fun h' => hn ((anyComplex_iff a).mpr h'))
    congr 1
    apply Arr2.ext_px
    · rfl
    · rfl
    intro i j _ _ _ _
    rw [Arr2.px_map, Arr2.px_map]
    cases hv : a.px i j with
    | none => rfl
    | some v =>
      have him : v.im = 0 := by
        by_contra hc
        exact hn ((anyComplex_iff a).mpr ⟨i, j, v, hv, hc⟩)
      have : v = (v.re : ℂ) := Complex.ext rfl (by simpa using him)
      simp only [Option.map_some]
      rw [this]
      simp [abs_of_nonneg (hp i j v hv)]

/-- **C12** for complex maps: the phase of the pixels does not matter.  Two maps whose pixels have the same moduli give the same mask
(or the same error). -/
theorem C12_phase_free (a b : Arr2 ℂ) (n : ℤ) (ha : HasModulus a) (hb : HasModulus b) (hr : a.nr = b.nr) (hc : a.nc = b.nc)
    (h : ∀ i j v w, a.px i j = some v → b.px i j = some w → ‖v‖ = ‖w‖) : ampthreshC a n = ampthreshC b n := by
  rw [C12_modulus a n ha, C12_modulus b n hb]
  congr 1
  apply Arr2.ext_px
  · exact hr
  · exact hc
  intro i j _ _ _ _
  rw [Arr2.px_map, Arr2.px_map]
  by_cases hin : (0 ≤ i ∧ i < a.nr) ∧ (0 ≤ j ∧ j < a.nc)
  · have hin' : (0 ≤ i ∧ i < b.nr) ∧ (0 ≤ j ∧ j < b.nc) := by rw [← hr, ← hc]; exact hin
    have e := h i j _ _ (Arr2.px_of_inB a hin) (Arr2.px_of_inB b hin')
    rw [Arr2.px_of_inB a hin, Arr2.px_of_inB b hin']
    simp only [Option.map_some, e]
  · have hin' : ¬ ((0 ≤ i ∧ i < b.nr) ∧ (0 ≤ j ∧ j < b.nc)) := by rw [← hr, ← hc]; exact hin
    rw [Arr2.px_of_not_inB a hin, Arr2.px_of_not_inB b hin']

/-- Two pixels of each sign and a dark one: the map is real, so its modulus is not taken. -/
def signedMap : Arr2 ℂ := ⟨1, 5, fun _ j => ![-4, -4, 0, 4, 4] j⟩

theorem signed_threshold : ampThreshold [(-4 : ℝ), -4, 0, 4, 4] 3 = .ok 0 := by
  have e1 : ([(-4 : ℝ), -4, 0, 4, 4]).min? = some (-4) := by norm_num [List.min?]
  have e2 : ([(-4 : ℝ), -4, 0, 4, 4]).max? = some 4 := by norm_num [List.max?]
  unfold ampThreshold
  rw [e1, e2]
  norm_num [histCount, histEdge, List.range_succ, List.countP_cons]

theorem modulus_threshold : ampThreshold [(4 : ℝ), 4, 0, 4, 4] 3 = .ok 2 := by
  have e1 : ([(4 : ℝ), 4, 0, 4, 4]).min? = some 0 := by norm_num [List.min?]
  have e2 : ([(4 : ℝ), 4, 0, 4, 4]).max? = some 4 := by norm_num [List.max?]
  unfold ampThreshold
  rw [e1, e2]
  norm_num [histCount, histEdge, List.range_succ, List.countP_cons]

/-- **C12** for complex maps needs the condition: a map that happens to be real keeps its signs.  Multiplying it by `i`, which changes no
modulus, changes the mask. -/
theorem C12_real_keeps_sign : ∃ m m' : Arr2 Bool, ampthreshC signedMap 3 = .ok m ∧
    ampthreshC (signedMap.map fun v : ℂ => Complex.I * v) 3 = .ok m' ∧ m.px 0 0 = some false ∧ m'.px 0 0 = some true := by
  have h1 : ¬ anyComplex signedMap := by
    rintro ⟨i, j, h⟩
    apply h
    have hall : ∀ k : Fin 5, (![(-4 : ℂ), -4, 0, 4, 4] k).im = 0 := by
      intro k
      fin_cases k <;> simp
    exact hall j
  have h2 : anyComplex (signedMap.map fun v : ℂ => Complex.I * v) := ⟨⟨0, by decide⟩, ⟨0, by decide⟩, by
    change (Complex.I * (-4 : ℂ)).im ≠ 0
    simp⟩
  have p1 : (signedMap.map fun v : ℂ => v.re).pixels = [(-4 : ℝ), -4, 0, 4, 4] := by
    simp [Arr2.pixels, Arr2.map, signedMap, List.finRange_succ]
  have p2 : ((signedMap.map fun v : ℂ => Complex.I * v).map fun v : ℂ => ‖v‖).pixels = [(4 : ℝ), 4, 0, 4, 4] := by
    simp [Arr2.pixels, Arr2.map, signedMap, List.finRange_succ]
  refine ⟨(signedMap.map fun v : ℂ => v.re).map fun v : ℝ => decide (0 < v),
    ((signedMap.map fun v : ℂ => Complex.I * v).map fun v : ℂ => ‖v‖).map fun v : ℝ => decide (2 < v), ?_, ?_, ?_, ?_⟩
  · unfold ampthreshC
    rw [if_neg h1]
    unfold ampthresh
    rw [if_neg (by norm_num), p1]
    simp only [Int.reduceToNat, signed_threshold]
  · unfold ampthreshC
    rw [if_pos h2]
    unfold ampthresh
    rw [if_neg (by norm_num), p2]
    simp only [Int.reduceToNat, modulus_threshold]
  · simp [Arr2.px_map, signedMap, Arr2.px, Arr2.map]
  · simp [Arr2.px_map, signedMap, Arr2.px, Arr2.map]
    norm_num

/-- The condition is met by a retrieved field with a phase. -/
example : HasModulus (signedMap.map fun v : ℂ => Complex.I * v) :=
  Or.inl ⟨0, 0, _, by rw [Arr2.px_map]; rfl, by simp [signedMap]⟩

end Coralign.Props
