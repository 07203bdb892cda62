import Verif.Props.PupilZernike

/-!
# C82: a scene in which the hypotheses of the theorems hold

The round pupil of `PupilFitCases`, anywhere within a pixel of the centre, the default structuring element, and a wavefront made of piston,
tip and tilt on the pupil.
-/

namespace Coralign.Props

open Coralign Coralign.Spec

/-- `SELEM_DEFAULT`. -/
def plusElement : Arr2 Bool := ⟨3, 3, fun i j => decide ((i : ℕ) = 1 ∨ (j : ℕ) = 1)⟩

theorem plus_px (p q : ℤ) (h : plusElement.px p q = some true) : (p = 1 ∧ 0 ≤ q ∧ q ≤ 2) ∨ (q = 1 ∧ 0 ≤ p ∧ p ≤ 2) := by
  by_cases hb : (0 ≤ p ∧ p < (3 : ℕ)) ∧ (0 ≤ q ∧ q < (3 : ℕ))
  · rw [show plusElement.px p q = some (decide (p.toNat = 1 ∨ q.toNat = 1)) from Arr2.px_of_inB _ hb] at h
    have := of_decide_eq_true (Option.some.inj h)
    omega
  · rw [Arr2.px_of_not_inB plusElement hb] at h
    cases h

/-- The mask of the scene and three of its pixels. -/
theorem scene_zmask (sy sx : ℤ) (hs : Small sy sx) : ∃ u : Fin 13 → Fin 13 → Bool, zernikeMask (roundAt sy sx) none (some plusElement) = .ok ⟨13, 13, u⟩ ∧
    ∀ i k : Fin 13, (((i : ℕ) : ℤ) - 6 - sy) ^ 2 + (((k : ℕ) : ℤ) - 6 - sx) ^ 2 ≤ 2 → u i k = true := by
  obtain ⟨m, hm, -, hp⟩ := roundAt_mask sy sx hs
  have hz : zernikeMask (roundAt sy sx) none (some plusElement) = .ok (erode m plusElement) := by
    unfold zernikeMask
    simp only
    rw [hm, res_ok_bind]
    exact if_neg (by show ¬ (3 = 0 ∨ 3 = 0); norm_num)
  obtain ⟨b, hb, n1, n2, hon⟩ := (C82_mask (roundAt sy sx) (some plusElement)).2.2 _ _ hz
  rw [hm] at hb
  obtain rfl := Except.ok.inj hb
  generalize erode m plusElement = e at hz n1 n2 hon
  obtain ⟨a, c, u⟩ := e
  obtain rfl : a = 13 := n1
  obtain rfl : c = 13 := n2
  refine ⟨u, hz, fun i k hik => ?_⟩
  have hpx : (⟨13, 13, u⟩ : Arr2 Bool).px ((i : ℕ) : ℤ) ((k : ℕ) : ℤ) = some (u i k) := Arr2.px_val (⟨13, 13, u⟩ : Arr2 Bool) i k
  have := (hon ((i : ℕ) : ℤ) ((k : ℕ) : ℤ) (by have := i.2; have := k.2; show (_ ∧ _ < ((13 : ℕ) : ℤ)) ∧ (_ ∧ _ < ((13 : ℕ) : ℤ)); omega)).mpr ?_
  · rw [hpx] at this
    exact Option.some.inj this
  · intro di dj hd
    have hd' := plus_px _ _ hd
    have hin : ((((i : ℕ) : ℤ) + di - 6, ((k : ℕ) : ℤ) + dj - 6) : ℤ × ℤ) ∈ places m := by
      rw [hp]
      show (((i : ℕ) : ℤ) + di - 6 - sy) ^ 2 + (((k : ℕ) : ℤ) + dj - 6 - sx) ^ 2 ≤ 5
      have e1 : (((plusElement.nr / 2 : ℕ)) : ℤ) = 1 := rfl
      have e2 : (((plusElement.nc / 2 : ℕ)) : ℤ) = 1 := rfl
      rw [e1, e2] at hd'
      rw [show ((i : ℕ) : ℤ) + di - 6 - sy = (((i : ℕ) : ℤ) - 6 - sy) + di by ring, show ((k : ℕ) : ℤ) + dj - 6 - sx = (((k : ℕ) : ℤ) - 6 - sx) + dj by ring]
      generalize ((i : ℕ) : ℤ) - 6 - sy = p at *
      generalize ((k : ℕ) : ℤ) - 6 - sx = q at *
      have hp1 : -1 ≤ p ∧ p ≤ 1 := by constructor <;> nlinarith
      have hq1 : -1 ≤ q ∧ q ≤ 1 := by constructor <;> nlinarith
      obtain ⟨p1, p2⟩ := hp1
      obtain ⟨q1, q2⟩ := hq1
      rcases hd' with ⟨h1, h2, h3⟩ | ⟨h1, h2, h3⟩
      · obtain rfl : di = 0 := by omega
        interval_cases p <;> interval_cases q <;> nlinarith
      · obtain rfl : dj = 0 := by omega
        interval_cases p <;> interval_cases q <;> nlinarith
    have hc : m.centered (((i : ℕ) : ℤ) + di - 6) (((k : ℕ) : ℤ) + dj - 6) = some true := hin
    obtain ⟨s1, s2, -⟩ := C12_threshold_mask _ 21 m hm
    unfold Arr2.centered at hc
    rw [s1, s2] at hc
    convert hc using 2 <;> (simp only [roundAt]; norm_num)

/-- `C82_exact`: piston `a`, tip `b` and tilt `c` over the pupil of the scene are found exactly, wherever the pupil is. -/
theorem scene_zernikes (S : Solver) (Sp : ClampSpline) (sy sx : ℤ) (hs : Small sy sx) (z : Fin 3 → ℝ) : ∃ (u : Fin 13 → Fin 13 → Bool) (f : ZernikeFit),
    fitPupilZernikes S Sp Rotate.still fiveFinder ⟨1, 1⟩ pupilScene
      ⟨13, 13, fun i k => if u i k then z 0 + z 1 * (2 * ((k : ℕ) - 6 - sx) / (5 / 2)) + z 2 * (2 * ((i : ℕ) - 6 - sy) / (5 / 2)) else 77⟩
      (roundAt sy sx) none 1 (some plusElement) = .ok f ∧ f.zvec = [z 0, z 1, z 2] ∧ f.bMask = ⟨13, 13, u⟩ := by
  obtain ⟨u, hu, hon⟩ := scene_zmask sy sx hs
  have hf := scene_fit S Sp sy sx hs
  have hbasis : ∀ (v : Fin 3 → ℝ) (i k : Fin 13), ∑ s : Fin 3, v s * fitBasis 13 13 5 (sx : ℝ) (sy : ℝ) s i k =
      v 0 + v 1 * (2 * ((k : ℕ) - 6 - sx) / (5 / 2)) + v 2 * (2 * ((i : ℕ) - 6 - sy) / (5 / 2)) := by
    intro v i k
    rw [Fin.sum_univ_three]
    unfold fitBasis
    have e1 := mode_piston (5 / 2) ((k : ℝ) - ((13 / 2 : ℕ) : ℝ) - sx) ((i : ℝ) - ((13 / 2 : ℕ) : ℝ) - sy)
    obtain ⟨e2, e3⟩ := mode_tilts (5 / 2) ((k : ℝ) - ((13 / 2 : ℕ) : ℝ) - sx) ((i : ℝ) - ((13 / 2 : ℕ) : ℝ) - sy)
    have h0 : ((0 : Fin 3) : ℕ) + 1 = 1 := rfl
    have h1 : ((1 : Fin 3) : ℕ) + 1 = 2 := rfl
    have h2 : ((2 : Fin 3) : ℕ) + 1 = 3 := rfl
    have h6 : ((13 / 2 : ℕ) : ℝ) = 6 := by norm_num
    rw [h0, h1, h2, e1, e2, e3, h6, mul_one]
  obtain ⟨⟨y1, y2⟩, x1, x2⟩ := hs
  have hind : ∀ v : Fin 3 → ℝ, (∀ i k, u i k = true → ∑ s : Fin 3, v s * fitBasis 13 13 5 (sx : ℝ) (sy : ℝ) s i k = 0) → v = 0 := by
    intro v hv
    have at_ : ∀ p q : ℤ, (0 ≤ p ∧ p ≤ 1) → (0 ≤ q ∧ q ≤ 1) → v 0 + v 1 * (2 * (q : ℝ) / (5 / 2)) + v 2 * (2 * (p : ℝ) / (5 / 2)) = 0 := by
      intro p q hp hq
      have hb : (6 + sy + p).toNat < 13 := by omega
      have hc : (6 + sx + q).toNat < 13 := by omega
      have ep : (((6 + sy + p).toNat : ℕ) : ℤ) = 6 + sy + p := by omega
      have eq : (((6 + sx + q).toNat : ℕ) : ℤ) = 6 + sx + q := by omega
      have ep' : (((6 + sy + p).toNat : ℕ) : ℝ) = 6 + sy + p := by exact_mod_cast ep
      have eq' : (((6 + sx + q).toNat : ℕ) : ℝ) = 6 + sx + q := by exact_mod_cast eq
      have := hv ⟨_, hb⟩ ⟨_, hc⟩ (hon _ _ (by
        simp only
        rw [ep, eq]
        nlinarith))
      rw [hbasis] at this
      simp only [ep', eq'] at this
      rw [← this]
      ring
    have a0 := at_ 0 0 (by norm_num) (by norm_num)
    have a1 := at_ 0 1 (by norm_num) (by norm_num)
    have a2 := at_ 1 0 (by norm_num) (by norm_num)
    push_cast at a0 a1 a2
    norm_num at a0 a1 a2
    funext s
    fin_cases s
    · exact a0
    · show v 1 = 0
      linarith
    · show v 2 = 0
      linarith
  obtain ⟨f, hfit, hz, -⟩ := C82_exact S Sp Rotate.still fiveFinder ⟨1, 1⟩ pupilScene (n := 13) (by norm_num) (by norm_num)
    (fun i k => if u i k then z 0 + z 1 * (2 * ((k : ℕ) - 6 - sx) / (5 / 2)) + z 2 * (2 * ((i : ℕ) - 6 - sy) / (5 / 2)) else 77)
    (roundAt sy sx) none (some plusElement) 1 one_pos 3 (by norm_num) sx sy 0 5 hf u hu z (fun i k h => by
      rw [hbasis]
      simp only [h, if_true]) hind
  obtain ⟨-, -, -, hm, -⟩ := zern_steps _ _ _ _ _ _ _ _ _ _ _ f hfit
  refine ⟨u, f, hfit, by rw [hz]; rfl, ?_⟩
  rw [hu] at hm
  exact (Except.ok.inj hm).symm

end Coralign.Props
