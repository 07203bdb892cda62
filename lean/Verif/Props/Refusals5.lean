import Verif.Props.Refusals4
import Verif.Props.MaskFit
import Verif.Model.FitShapes
import Verif.Model.SpmShear

/-!
# C97 continued: unwrapping, mask fits, mirror shapes, thin films, starting commands
-/

namespace Coralign.Props

open Coralign

theorem px_some_inB {α : Type} {a : Arr2 α} {i j : ℤ} {c : α} (h : a.px i j = some c) : (0 ≤ i ∧ i < a.nr) ∧ (0 ≤ j ∧ j < a.nc) := by
  by_contra hc
  rw [Arr2.px_of_not_inB _ hc] at h
  cases h

/-- **C97 (unwrapping).**  `fails` stands for the search for a threshold raising (C12 says when). -/
theorem C97_unwrap (U : Unwrapper) (R : SmallRemover) (phase amp : Arr2 ℝ) (nbin : ℤ) (fill : ℝ) (minSize : ℤ) (useMask : Bool)
    (bMask : Option (Arr2 Bool)) (shapes binsPos sizeAndMask fails : Prop)
    (e1 : shapes ↔ (phase.nr = amp.nr ∧ phase.nc = amp.nc) ∧ ∀ i j v, amp.px i j = some v → 0 ≤ v)
    (e2 : binsPos ↔ 1 ≤ nbin)
    (e3 : sizeAndMask ↔ 1 ≤ minSize ∧ ∀ b, bMask = some b → b.nr = phase.nr ∧ b.nc = phase.nc)
    (e4 : fails ↔ bMask = none ∧ useMask = true ∧ ∃ e, ampthresh amp nbin = .error e) :
    ((∃ o, unwrap U R phase amp nbin fill minSize useMask bMask = .ok o) ↔ shapes ∧ 3 ≤ nbin ∧ sizeAndMask ∧ ¬ fails) ∧
    (unwrap U R phase amp nbin fill minSize useMask bMask = .error .typeError ↔
      ¬ shapes ∨ ¬ binsPos ∨ 3 ≤ nbin ∧ ¬ sizeAndMask) ∧
    (unwrap U R phase amp nbin fill minSize useMask bMask = .error .valueError ↔
      shapes ∧ binsPos ∧ (nbin < 3 ∨ sizeAndMask ∧ fails)) := by
  have hneg : anyNegative amp ↔ ¬ ∀ i j v, amp.px i j = some v → 0 ≤ v := by
    unfold anyNegative
    constructor
    · rintro ⟨i, j, h⟩ hh
      exact absurd (hh i j _ (Arr2.px_val amp i j)) (not_le.mpr h)
    · intro hh
      push Not at hh
      obtain ⟨i, j, v, hv, hn⟩ := hh
      obtain ⟨hi, hj, hi', hj', hval⟩ : ∃ (a : ℕ) (b : ℕ) (ha : a < amp.nr) (hb : b < amp.nc), amp.val ⟨a, ha⟩ ⟨b, hb⟩ = v := by
        have hin : (0 ≤ i ∧ i < amp.nr) ∧ (0 ≤ j ∧ j < amp.nc) := by
          by_contra hc
          rw [Arr2.px_of_not_inB _ hc] at hv
          cases hv
        obtain ⟨a, rfl⟩ := Int.eq_ofNat_of_zero_le hin.1.1
        obtain ⟨b, rfl⟩ := Int.eq_ofNat_of_zero_le hin.2.1
        refine ⟨a, b, by omega, by omega, ?_⟩
        have := Arr2.px_val amp ⟨a, by omega⟩ ⟨b, by omega⟩
        rw [this] at hv
        exact Option.some.inj hv
      exact ⟨_, _, by rw [hval]; exact hn⟩
  have chk : (shapes ∧ 3 ≤ nbin ∧ sizeAndMask → unwrapChecks phase amp nbin minSize bMask = .ok ()) ∧
      (¬ shapes ∨ ¬ binsPos ∨ 3 ≤ nbin ∧ ¬ sizeAndMask → unwrapChecks phase amp nbin minSize bMask = .error .typeError) ∧
      (shapes ∧ binsPos ∧ nbin < 3 → unwrapChecks phase amp nbin minSize bMask = .error .valueError) := by
    unfold unwrapChecks
    rw [e1, e2, e3]
    refine ⟨?_, ?_, ?_⟩
    · rintro ⟨⟨h1, h2⟩, h3, h4, h5⟩
      rw [if_neg (by omega), if_neg (fun h => hneg.mp h h2), if_neg (by omega), if_neg (by omega), if_neg (by omega)]
      cases bMask with
      | none => rfl
      | some b =>
        have := h5 b rfl
        dsimp only
        rw [if_neg (by omega)]
    · intro h
      by_cases h1 : phase.nr ≠ amp.nr ∨ phase.nc ≠ amp.nc
      · rw [if_pos h1]
      rw [if_neg h1]
      by_cases h2 : anyNegative amp
      · rw [if_pos h2]
      rw [if_neg h2]
      by_cases h3 : nbin ≤ 0
      · rw [if_pos h3]
      rw [if_neg h3]
      have hsh : (phase.nr = amp.nr ∧ phase.nc = amp.nc) ∧ ∀ i j v, amp.px i j = some v → 0 ≤ v :=
        ⟨by omega, not_not.mp fun hh => h2 (hneg.mpr hh)⟩
      have h' := (h.resolve_left (not_not.mpr hsh)).resolve_left (by omega)
      rw [if_neg (by omega)]
      by_cases h4 : minSize ≤ 0
      · rw [if_pos h4]
      rw [if_neg h4]
      cases bMask with
      | none => exact absurd ⟨by omega, by simp⟩ h'.2
      | some b =>
        dsimp only
        rw [if_pos]
        by_contra hc
        apply h'.2
        refine ⟨by omega, ?_⟩
        rintro b' hb
        obtain rfl := Option.some.inj hb
        omega
    · rintro ⟨⟨h1, h2⟩, h3, h4⟩
      rw [if_neg (by omega), if_neg (fun h => hneg.mp h h2), if_neg (by omega), if_pos h4]
  have msk : (¬ fails → ∃ m, chooseMask R phase amp nbin minSize useMask bMask = .ok m) ∧
      (fails → chooseMask R phase amp nbin minSize useMask bMask = .error .valueError) := by
    unfold chooseMask
    rw [e4]
    cases bMask with
    | some b => simp
    | none =>
      cases useMask with
      | false => simp
      | true =>
        constructor
        · intro h
          cases ht : ampthresh amp nbin with
          | error e => exact absurd ⟨rfl, rfl, e, ht⟩ h
          | ok t => exact ⟨_, rfl⟩
        · rintro ⟨-, -, e, he⟩
          dsimp only
          rw [if_pos rfl, he, (C12_error_iff amp nbin).1 e he]
  have hb : 3 ≤ nbin → binsPos := fun h => e2.mpr (by omega)
  unfold unwrap
  by_cases hT : ¬ shapes ∨ ¬ binsPos ∨ 3 ≤ nbin ∧ ¬ sizeAndMask
  · rw [chk.2.1 hT]
    refine ⟨iff_of_false (by simp) ?_, iff_of_true rfl hT, iff_of_false (by simp) ?_⟩
    · rintro ⟨a, b, c, -⟩
      rcases hT with h | h | h
      · exact h a
      · exact h (hb b)
      · exact h.2 c
    · rintro ⟨a, b, c⟩
      rcases hT with h | h | h
      · exact h a
      · exact h b
      · rcases c with c | c
        · omega
        · exact h.2 c.1
  · have hT' : shapes ∧ binsPos ∧ (3 ≤ nbin → sizeAndMask) :=
      ⟨not_not.mp fun h => hT (Or.inl h), not_not.mp fun h => hT (Or.inr (Or.inl h)),
        fun h3 => not_not.mp fun h => hT (Or.inr (Or.inr ⟨h3, h⟩))⟩
    by_cases h3 : nbin < 3
    · rw [chk.2.2 ⟨hT'.1, hT'.2.1, h3⟩]
      refine ⟨iff_of_false (by simp) ?_, iff_of_false (by simp) hT, iff_of_true rfl ⟨hT'.1, hT'.2.1, Or.inl h3⟩⟩
      rintro ⟨-, b, -⟩; omega
    · have hs := hT'.2.2 (by omega)
      rw [chk.1 ⟨hT'.1, by omega, hs⟩]
      dsimp only
      by_cases hf : fails
      · rw [msk.2 hf]
        refine ⟨iff_of_false (by simp) (fun h => h.2.2.2 hf), iff_of_false (by simp) hT, iff_of_true rfl ⟨hT'.1, hT'.2.1, Or.inr ⟨hs, hf⟩⟩⟩
      · obtain ⟨m, hm⟩ := msk.1 hf
        rw [hm]
        refine ⟨iff_of_true ⟨_, rfl⟩ ⟨hT'.1, by omega, hs, hf⟩, iff_of_false (by simp) hT, iff_of_false (by simp) ?_⟩
        rintro ⟨-, -, c | c⟩
        · exact h3 c
        · exact hf c.2

/-- **C97 (segment-wise unwrapping).**  It raises exactly what `unwrap` raises for the same arguments, then `RuntimeError` for a structuring
element of size zero, and otherwise only what the nearest-neighbour interpolation of the eroded mask raises. -/
theorem C97_unwrap_segments (U : Unwrapper) (R : SmallRemover) (interp : Arr2 ℝ → Arr2 Bool → Res (ℕ → ℕ → ℝ)) (phase amp : Arr2 ℝ)
    (nbin : ℤ) (fill : ℝ) (minSize : ℤ) (useMask : Bool) (bMask selem : Option (Arr2 Bool)) :
    (∀ e, unwrap U R phase amp nbin fill minSize useMask bMask = .error e →
      unwrapSegments U R interp phase amp nbin fill minSize useMask bMask selem = .error e) ∧
    (∀ u m, unwrap U R phase amp nbin fill minSize useMask bMask = .ok (u, m) →
      ((∃ s, selem = some s ∧ (s.nr = 0 ∨ s.nc = 0)) →
        unwrapSegments U R interp phase amp nbin fill minSize useMask bMask selem = .error .runtimeError) ∧
      (∀ me, (selem = none ∧ me = m ∨ ∃ s, selem = some s ∧ 1 ≤ s.nr ∧ 1 ≤ s.nc ∧ me = erode m s) →
        (∀ e, interp phase me = .error e →
          unwrapSegments U R interp phase amp nbin fill minSize useMask bMask selem = .error e) ∧
        (∀ f, interp phase me = .ok f →
          ∃ o, unwrapSegments U R interp phase amp nbin fill minSize useMask bMask selem = .ok o))) := by
  constructor
  · intro e h
    unfold unwrap at h
    unfold unwrapSegments
    cases hc : unwrapChecks phase amp nbin minSize bMask with
    | error x => rw [hc] at h; exact h ▸ rfl
    | ok _ =>
      rw [hc] at h
      dsimp only at h ⊢
      cases hm : chooseMask R phase amp nbin minSize useMask bMask with
      | error x => rw [hm] at h; exact (Except.error.inj h) ▸ rfl
      | ok m => rw [hm] at h; cases h
  · intro u m h
    have hu := (C97_unwrap U R phase amp nbin fill minSize useMask bMask _ _ _ _ Iff.rfl Iff.rfl Iff.rfl Iff.rfl).1.mp ⟨_, h⟩
    unfold unwrap at h
    unfold unwrapSegments
    cases hc : unwrapChecks phase amp nbin minSize bMask with
    | error x => rw [hc] at h; cases h
    | ok _ =>
      rw [hc] at h
      dsimp only at h ⊢
      cases hm : chooseMask R phase amp nbin minSize useMask bMask with
      | error x => rw [hm] at h; cases h
      | ok m' =>
        rw [hm] at h
        dsimp only at h ⊢
        obtain ⟨-, rfl⟩ : _ ∧ m' = m := by simpa using h
        refine ⟨fun ⟨s, hs, hz⟩ => ?_, fun me hme => ?_⟩
        · rw [show erodeOpt m' selem = .error .runtimeError by rw [hs]; exact if_pos hz]
        have hE : erodeOpt m' selem = .ok me := by
          rcases hme with ⟨rfl, rfl⟩ | ⟨s, rfl, z1, z2, rfl⟩
          · rfl
          · exact if_neg (by omega)
        rw [hE]
        dsimp only
        refine ⟨fun e he => by rw [he], fun f hf => ?_⟩
        rw [hf]
        dsimp only
        obtain ⟨o, ho⟩ := (C97_unwrap U R (⟨phase.nr, phase.nc, fun i j =>
          if me.px (i : ℕ) (j : ℕ) = some true then phase.val i j else f i j⟩ : Arr2 ℝ) amp 21 0 64 false none
          _ _ _ _ Iff.rfl Iff.rfl Iff.rfl Iff.rfl).1.mpr ⟨hu.1, by norm_num, ⟨by norm_num, by simp⟩, by simp⟩
        obtain ⟨o1, o2⟩ := o
        rw [ho]
        exact ⟨_, rfl⟩

/-- **C97 (lateral offsets, with the coarse search).** -/
theorem C97_lateral (fuel : ℕ) (S : Solver) (meas ref : Arr2 ℝ) (diam : ℝ) (nSteps : ℤ) (d : ℝ) (nPad nFocus nIter : ℤ)
    (h : ¬ (0 < diam ∧ 1 ≤ nSteps ∧ 0 < d ∧ 1 ≤ nPad ∧ 1 ≤ nFocus ∧ 1 ≤ nIter)) :
    computeLateralOffsetsCoarse fuel S meas ref diam nSteps d nPad nFocus nIter = some (.error .typeError) ∧
    ∀ x y, computeLateralOffsets S meas ref diam nSteps d nPad nFocus nIter x y = .error .typeError := by
  have hb : diam ≤ 0 ∨ nSteps ≤ 0 ∨ d ≤ 0 ∨ nPad ≤ 0 ∨ nFocus ≤ 0 ∨ nIter ≤ 0 := by
    by_contra hc
    push Not at hc
    exact h ⟨hc.1, by omega, hc.2.2.1, by omega, by omega, by omega⟩
  unfold computeLateralOffsetsCoarse computeLateralOffsets
  exact ⟨by rw [if_pos hb], fun x y => by rw [if_pos hb]⟩

/-- **C97 (Lyot stop).**  Which fault of the settings raises which exception, in the order in which they are tested. -/
theorem C97_lyot (fuel : ℕ) (S : Solver) (Sp : ClampSpline) (R : Rotate) (t : LyotTuning) (U M : Arr2 ℝ) (xP yP : ℝ) :
    ((U.nr ≠ M.nr ∨ U.nc ≠ M.nc) → fitLyotStopMagClocking fuel S Sp R t U M xP yP = some (.error .valueError)) ∧
    (U.nr = M.nr → U.nc = M.nc →
      ((t.clockMaxDeg ≤ 0 ∨ t.nClock < 1 ∨ t.deltaAmpMax ≤ 0 ∨ t.diamPupil ≤ 0) →
        fitLyotStopMagClocking fuel S Sp R t U M xP yP = some (.error .typeError)) ∧
      (0 < t.clockMaxDeg → 1 ≤ t.nClock → 0 < t.diamPupil →
        (1 ≤ t.deltaAmpMax → fitLyotStopMagClocking fuel S Sp R t U M xP yP = some (.error .valueError)) ∧
        (0 < t.deltaAmpMax → t.deltaAmpMax < 1 →
          (1 ≤ t.magShrinkFac → fitLyotStopMagClocking fuel S Sp R t U M xP yP = some (.error .valueError)) ∧
          (t.magShrinkFac < 1 → (t.magShrinkFac ≤ 0 ∨ t.deltaMag ≤ 0 ∨ t.nMag < 1 ∨ t.nIterMag < 1) →
            fitLyotStopMagClocking fuel S Sp R t U M xP yP = some (.error .typeError))))) := by
  have pass : ∀ e, U.nr = M.nr → U.nc = M.nc → lyotChecks t = .error e →
      fitLyotStopMagClocking fuel S Sp R t U M xP yP = some (.error e) := by
    intro e h1 h2 he
    have : lyotStart Sp R t U M xP yP = .error e := by unfold lyotStart; rw [he]; rfl
    unfold fitLyotStopMagClocking
    rw [if_neg (by omega), this]
  refine ⟨fun h => by unfold fitLyotStopMagClocking; rw [if_pos h], fun h1 h2 => ⟨fun h => pass _ h1 h2 ?_, fun a b c => ⟨fun h => pass _ h1 h2 ?_,
    fun d e => ⟨fun h => pass _ h1 h2 ?_, fun f h => pass _ h1 h2 ?_⟩⟩⟩⟩
  all_goals unfold lyotChecks
  · rw [if_pos (by
      rcases h with h | h | h | h
      · exact Or.inl h
      · exact Or.inr (Or.inl (by omega))
      · exact Or.inr (Or.inr (Or.inl h))
      · exact Or.inr (Or.inr (Or.inr h)))]
  · rw [if_neg (by push Not; exact ⟨a, by omega, by linarith, c⟩), if_pos h]
  · rw [if_neg (by push Not; exact ⟨a, by omega, d, c⟩), if_neg (not_le.mpr e), if_neg (by linarith), if_pos h]
  · rw [if_neg (by push Not; exact ⟨a, by omega, d, c⟩), if_neg (not_le.mpr e)]
    by_cases h0 : t.magShrinkFac ≤ 0
    · rw [if_pos h0]
    · rw [if_neg h0, if_neg (not_le.mpr f), if_pos]
      rcases h with h | h | h | h
      · exact absurd h h0
      · exact Or.inl h
      · exact Or.inr (Or.inl (by omega))
      · exact Or.inr (Or.inr (by omega))

/-- **C97 (thin film).** -/
theorem C97_thin_film (n : List ℂ) (d0 : List ℝ) (theta lam : ℝ) (tetm : Bool) :
    ((∃ o, solver n d0 theta lam tetm = .ok o) ↔ d0.length + 2 = n.length ∧ (0 ≤ theta ∧ theta < Real.pi / 2) ∧ 0 < lam) ∧
    (solver n d0 theta lam tetm = .error .valueError ↔ ¬ (d0.length + 2 = n.length ∧ (0 ≤ theta ∧ theta < Real.pi / 2) ∧ 0 < lam)) := by
  unfold solver
  refine one_refusal (fun h => ?_) (fun h => ?_)
  · by_cases h1 : (d0.length : ℤ) ≠ (n.length : ℤ) - 2
    · rw [if_pos h1]
    rw [if_neg h1]
    by_cases h2 : theta < 0
    · rw [if_pos h2]
    rw [if_neg h2]
    by_cases h3 : theta ≥ Real.pi / 2
    · rw [if_pos h3]
    rw [if_neg h3, if_pos]
    by_contra h4
    exact h ⟨by omega, ⟨not_lt.mp h2, not_le.mp h3⟩, not_le.mp h4⟩
  · rw [if_neg (by omega), if_neg (not_lt.mpr h.2.1.1), if_neg (not_le.mpr h.2.1.2), if_neg (not_le.mpr h.2.2)]
    exact ⟨_, rfl⟩

/-- **C97 (poke grid).** -/
theorem C97_grid {K : Type} [AddCommMonoid K] (nact xs ys xo yo : ℤ) (poke : K) :
    ((∃ o, grid nact xs ys xo yo poke = .ok o) ↔
      (1 ≤ nact ∧ 1 ≤ xs ∧ 1 ≤ ys ∧ 0 ≤ xo ∧ 0 ≤ yo) ∧ (xo < xs ∧ yo < ys ∧ xs ≤ nact ∧ ys ≤ nact)) ∧
    (grid nact xs ys xo yo poke = .error .typeError ↔ ¬ (1 ≤ nact ∧ 1 ≤ xs ∧ 1 ≤ ys ∧ 0 ≤ xo ∧ 0 ≤ yo)) ∧
    (grid nact xs ys xo yo poke = .error .valueError ↔
      (1 ≤ nact ∧ 1 ≤ xs ∧ 1 ≤ ys ∧ 0 ≤ xo ∧ 0 ≤ yo) ∧ ¬ (xo < xs ∧ yo < ys ∧ xs ≤ nact ∧ ys ≤ nact)) := by
  unfold grid
  refine two_refusals (by decide) (fun h => if_pos (by omega)) (fun h h' => ?_) (fun h h' => ?_)
  · rw [if_neg (by omega)]
    split_ifs <;> first | rfl | omega
  · rw [if_neg (by omega), if_neg (by omega), if_neg (by omega), if_neg (by omega), if_neg (by omega)]
    exact ⟨_, rfl⟩

/-- **C97 (Zernike shape of a mirror).** -/
theorem C97_dm_zernike (nact : ℤ) (dact z : ℝ) (order : ℤ) :
    ((∃ o, dmZernike nact dact z order = .ok o) ↔ 1 ≤ nact ∧ 0 < dact ∧ 1 ≤ order) ∧
    (dmZernike nact dact z order = .error .typeError ↔ ¬ (1 ≤ nact ∧ 0 < dact ∧ 1 ≤ order)) := by
  unfold dmZernike
  refine one_refusal (fun h => if_pos ?_) (fun h => ?_)
  · by_contra hc
    push Not at hc
    exact h ⟨by omega, hc.2.1, by omega⟩
  · rw [if_neg (by push Not; exact ⟨by omega, h.2.1, by omega⟩)]
    have hd := h.2.1
    obtain ⟨c, hc⟩ := (C97_xyzern (Arr2.ofFn nact.toNat nact.toNat fun _ j => dmAxis nact.toNat j)
      (Arr2.ofFn nact.toNat nact.toNat fun i _ => dmAxis nact.toNat i) (dact / 2) [order]).1.mpr
      ⟨⟨by linarith, rfl, rfl, by simpa using h.2.2⟩, by simp⟩
    dsimp only
    rw [hc, res_ok_bind]
    have hl : c.length = 1 := by
      unfold xyzern at hc
      split_ifs at hc
      rw [← Except.ok.inj hc]
      rfl
    obtain ⟨s, rfl⟩ := List.length_eq_one_iff.mp hl
    exact ⟨_, rfl⟩

/-- **C97 (circle fit).**  `IndexError` is raised exactly when the arguments are good and no circle is found. -/
theorem C97_fit_circle (H : CircleFinder) (img : Arr2 ℝ) (minR maxR : ℤ) (sigma : ℝ) :
    (fitCircle H img minR maxR sigma = .error .typeError ↔ ¬ (1 ≤ minR ∧ 1 ≤ maxR ∧ 0 < sigma)) ∧
    (fitCircle H img minR maxR sigma = .error .valueError ↔
      (1 ≤ minR ∧ 1 ≤ maxR ∧ 0 < sigma) ∧ (maxR ≤ minR ∨ ∃ e, ampthresh img 21 = .error e)) ∧
    (fitCircle H img minR maxR sigma = .error .indexError ↔ (1 ≤ minR ∧ minR < maxR ∧ 0 < sigma) ∧
      ∃ m, ampthresh img 21 = .ok m ∧ H m sigma ((List.range (maxR + 1 - minR).toNat).map fun k : ℕ => minR + k) = []) := by
  unfold fitCircle
  by_cases h1 : minR ≤ 0 ∨ maxR ≤ 0 ∨ sigma ≤ 0
  · rw [if_pos h1]
    have : ¬ (1 ≤ minR ∧ 1 ≤ maxR ∧ 0 < sigma) := by
      rintro ⟨a, b, c⟩
      rcases h1 with h | h | h
      · omega
      · omega
      · linarith
    refine ⟨iff_of_true rfl this, iff_of_false (by simp) (fun h => this h.1), iff_of_false (by simp) fun h => this ⟨h.1.1, by omega, h.1.2.2⟩⟩
  · rw [if_neg h1]
    push Not at h1
    have hg : 1 ≤ minR ∧ 1 ≤ maxR ∧ 0 < sigma := ⟨by omega, by omega, h1.2.2⟩
    by_cases h2 : ¬ minR < maxR
    · rw [if_pos h2]
      refine ⟨iff_of_false (by simp) (not_not.mpr hg), iff_of_true rfl ⟨hg, Or.inl (by omega)⟩, iff_of_false (by simp) fun h => h2 h.1.2.1⟩
    · rw [if_neg h2]
      cases ht : ampthresh img 21 with
      | error e =>
        obtain rfl := (C12_error_iff img 21).1 e ht
        refine ⟨iff_of_false (by simp [bind, Except.bind]) (not_not.mpr hg), iff_of_true rfl ⟨hg, Or.inr ⟨_, rfl⟩⟩, iff_of_false (by simp [bind, Except.bind]) ?_⟩
        rintro ⟨-, m, hm, -⟩
        cases hm
      | ok m =>
        rw [res_ok_bind]
        dsimp only
        cases hH : H m sigma ((List.range (maxR + 1 - minR).toNat).map fun k : ℕ => minR + k) with
        | nil =>
          refine ⟨iff_of_false (by simp) (not_not.mpr hg), iff_of_false (by simp) ?_, iff_of_true rfl ⟨⟨hg.1, by omega, hg.2.2⟩, m, rfl, hH⟩⟩
          rintro ⟨-, h | ⟨e, h⟩⟩
          · omega
          · cases h
        | cons p l =>
          refine ⟨iff_of_false (by simp) (not_not.mpr hg), iff_of_false (by simp) ?_, iff_of_false (by simp) ?_⟩
          · rintro ⟨-, h | ⟨e, h⟩⟩
            · omega
            · cases h
          · rintro ⟨-, m', hm, hn⟩
            obtain rfl := Except.ok.inj hm
            rw [hH] at hn
            cases hn

/-- **C97 (shear of a shaped pupil).**  The four shapes that are compared with another must agree, or `ValueError` is raised
whatever else is passed. -/
theorem C97_spm_shear (U : Unwrapper) (R : SmallRemover) (S : Solver) (T : Shift) (cfg : PsfConfig) (amp0 un0 pk0 amp1 un1 pk1 : Arr2 ℝ)
    (h : ¬ ((un0.nr = amp0.nr ∧ un0.nc = amp0.nc) ∧ (pk0.nr = amp0.nr ∧ pk0.nc = amp0.nc) ∧ (un1.nr = amp1.nr ∧ un1.nc = amp1.nc) ∧
      pk1.nr = amp0.nr ∧ pk1.nc = amp0.nc)) :
    fitSpmShear U R S T cfg amp0 un0 pk0 amp1 un1 pk1 = .error .valueError := by
  unfold fitSpmShear
  split_ifs <;> first | rfl | skip
  exfalso
  omega

/-! ### Steps of the flattening -/

/-- **C97 (steps of the flattening).**  Without mirrors the phases are zero maps, refused with `ValueError` for negative sizes;
limiting the phase needs a usable pixel; commands and corrections must have the same shape; and the focus mechanism needs
non-zero calibration factors. -/
theorem C97_flatten_steps :
    (∀ F hz low high u (sh1 sh2 : ℤ × ℤ), ((∃ o, splitPhase F false hz low high u sh1 sh2 = .ok o) ↔
        0 ≤ sh1.1 ∧ 0 ≤ sh1.2 ∧ 0 ≤ sh2.1 ∧ 0 ≤ sh2.2) ∧
      (splitPhase F false hz low high u sh1 sh2 = .error .valueError ↔ ¬ (0 ≤ sh1.1 ∧ 0 ≤ sh1.2 ∧ 0 ≤ sh2.1 ∧ 0 ≤ sh2.2))) ∧
    (∀ u a, ((∃ o, clampPhase u a = .ok o) ↔ ∃ i j, u.px i j = some true) ∧
      (clampPhase u a = .error .valueError ↔ ¬ ∃ i j, u.px i j = some true)) ∧
    (∀ c d, ((∃ o, subCmd c d = .ok o) ↔ c.nr = d.nr ∧ c.nc = d.nc) ∧ (subCmd c d = .error .valueError ↔ ¬ (c.nr = d.nr ∧ c.nc = d.nc))) ∧
    (∀ useFCM cmd z4 lam fc, ((∃ o, fcmStep useFCM cmd z4 lam fc = .ok o) ↔
        (useFCM = true → fc.focusPerStroke ≠ 0 ∧ fc.strokePerStep ≠ 0)) ∧
      (fcmStep useFCM cmd z4 lam fc = .error (.user 1) ↔ ¬ (useFCM = true → fc.focusPerStroke ≠ 0 ∧ fc.strokePerStep ≠ 0))) := by
  refine ⟨fun F hz low high u sh1 sh2 => ?_, fun u a => ?_, fun c d => ?_, fun useFCM cmd z4 lam fc => ?_⟩
  · unfold splitPhase
    rw [if_neg (by simp)]
    refine one_refusal (fun h => if_pos (by omega)) (fun h => ?_)
    rw [if_neg (by omega)]
    exact ⟨_, rfl⟩
  · have hl : selectList u a = [] ↔ ¬ ∃ i j, u.px i j = some true := by
      unfold selectList
      rw [List.flatMap_eq_nil_iff]
      constructor
      · rintro h ⟨i, j, hij⟩
        have hin : (0 ≤ i ∧ i < u.nr) ∧ (0 ≤ j ∧ j < u.nc) := by
          by_contra hc
          rw [Arr2.px_of_not_inB _ hc] at hij
          cases hij
        obtain ⟨x, rfl⟩ := Int.eq_ofNat_of_zero_le hin.1.1
        obtain ⟨y, rfl⟩ := Int.eq_ofNat_of_zero_le hin.2.1
        have hv := Arr2.px_val u ⟨x, by omega⟩ ⟨y, by omega⟩
        have hx := h ⟨x, by omega⟩ (List.mem_finRange _)
        rw [List.filterMap_eq_nil_iff] at hx
        have hy := hx ⟨y, by omega⟩ (List.mem_finRange _)
        rw [hv] at hij
        simp [Option.some.inj hij] at hy
      · intro h i _
        rw [List.filterMap_eq_nil_iff]
        intro j _
        rw [if_neg]
        intro hv
        exact h ⟨_, _, by rw [Arr2.px_val u i j, hv]⟩
    unfold clampPhase
    refine one_refusal (fun h => ?_) (fun h => ?_)
    · rw [hl.mpr h]; rfl
    · have hne : selectList u a ≠ [] := fun h0 => hl.mp h0 h
      cases hmn : (selectList u a).min? with
      | none => exact absurd (List.min?_eq_none_iff.mp hmn) hne
      | some lo =>
        cases hmx : (selectList u a).max? with
        | none => exact absurd (List.max?_eq_none_iff.mp hmx) hne
        | some hi => exact ⟨_, rfl⟩
  · unfold subCmd
    refine one_refusal (fun h => dif_neg h) (fun h => ?_)
    rw [dif_pos h]; exact ⟨_, rfl⟩
  · unfold fcmStep
    refine one_refusal (fun h => ?_) (fun h => ?_)
    · have h1 : useFCM = true := by by_contra hc; exact h fun hh => absurd hh hc
      rw [if_pos h1, if_pos]
      by_contra hc
      push Not at hc
      exact h fun _ => hc
    · by_cases h1 : useFCM = true
      · rw [if_pos h1, if_neg (by push Not; exact h h1)]
        exact ⟨_, rfl⟩
      · rw [if_neg h1]; exact ⟨_, rfl⟩

section
variable {K : Type} [Field K] [LinearOrder K] [IsStrictOrderedRing K]

/-- Every command of the map can be converted with this reference data. -/
def Convertible (m : Arr2 K) (cube : Arr3 K) (v : List K) : Prop :=
  (cube.nr = m.nr ∧ cube.nc = m.nc ∧ cube.ns = v.length) ∧ 4 ≤ v.length ∧
    ∀ i j c, m.px i j = some c → (∃ a ∈ v, a ≤ c) ∧ ∃ b ∈ v, c ≤ b

omit [IsStrictOrderedRing K] in
theorem heights_shape (I : CubicInterp K) (m o : Arr2 K) (cube : Arr3 K) (v : List K) (h : heightsForCommands I m cube v = .ok o) :
    o.nr = m.nr ∧ o.nc = m.nc := by
  unfold heightsForCommands at h
  split_ifs at h
  cases h1 : verifyUnique v with
  | error e => rw [h1] at h; cases h
  | ok _ =>
    rw [h1, res_ok_bind] at h
    cases h2 : verifyPresorted v with
    | error e => rw [h2] at h; cases h
    | ok _ =>
      rw [h2, res_ok_bind] at h
      unfold fillGrid at h
      dsimp only at h
      cases h3 : (((List.range m.nc).flatMap fun c => (List.range m.nr).map fun r => (r, c)).foldlM (fun (acc : ℕ → ℕ → K) p => do
          let w ← (do
            let col ← cube.column p.1 p.2
            I.run v col ((m.px (p.1 : ℕ) (p.2 : ℕ)).getD 0) : Res K)
          (.ok (fun r c => if r = p.1 ∧ c = p.2 then w else acc r c) : Res (ℕ → ℕ → K))) (fun _ _ => 0) : Res (ℕ → ℕ → K)) with
      | error e => erw [h3] at h; cases h
      | ok f => erw [h3] at h; cases h; exact ⟨rfl, rfl⟩

/-- **C97 (height difference).**  For square maps: returned exactly when both maps can be converted, `ValueError` otherwise. -/
theorem C97_delta_heights (I : CubicInterp K) (before after : Arr2 K) (cube : Arr3 K) (v : List K) (hv : v.Pairwise (· < ·))
    (hb : before.nr = before.nc) (hb0 : 0 < before.nr) (ha : after.nr = after.nc) (ha0 : 0 < after.nr) :
    ((∃ o, deltaHeights I before after cube v = .ok o) ↔ Convertible before cube v ∧ Convertible after cube v) ∧
    (deltaHeights I before after cube v = .error .valueError ↔ ¬ (Convertible before cube v ∧ Convertible after cube v)) := by
  obtain ⟨b1, b2⟩ := C97_heights I before cube v hv hb hb0
  obtain ⟨a1, a2⟩ := C97_heights I after cube v hv ha ha0
  unfold deltaHeights
  refine one_refusal (fun h => ?_) (fun h => ?_)
  · by_cases hs : shapesClose before after
    · rw [if_pos hs]
      by_cases h1 : Convertible before cube v
      · obtain ⟨o1, ho1⟩ := b1.mpr h1
        rw [ho1, res_ok_bind, a2.mpr fun h2 => h ⟨h1, h2⟩]
        rfl
      · rw [b2.mpr h1]; rfl
    · rw [if_neg hs]
  · obtain ⟨o1, ho1⟩ := b1.mpr h.1
    obtain ⟨o2, ho2⟩ := a1.mpr h.2
    have e : before.nr = after.nr ∧ before.nc = after.nc := ⟨h.1.1.1.symm.trans h.2.1.1, h.1.1.2.1.symm.trans h.2.1.2.1⟩
    have hs : shapesClose before after := by
      unfold shapesClose isClose
      rw [e.1, e.2, sub_self, sub_self, abs_zero]
      exact ⟨by positivity, by positivity⟩
    have s1 := heights_shape I _ _ _ _ ho1
    have s2 := heights_shape I _ _ _ _ ho2
    rw [if_pos hs, ho1, res_ok_bind, ho2, res_ok_bind]
    unfold zipPx
    rw [dif_pos ⟨by omega, by omega⟩]
    exact ⟨_, rfl⟩

omit [Field K] [IsStrictOrderedRing K] in
theorem clipHeight_between (lo hi x : K) : (lo ≤ clipHeight lo hi x ∨ hi ≤ clipHeight lo hi x) ∧ clipHeight lo hi x ≤ hi := by
  unfold clipHeight
  dsimp only
  split_ifs with h1 h2 h2
  · exact ⟨Or.inr le_rfl, le_rfl⟩
  · exact ⟨Or.inl le_rfl, not_lt.mp h2⟩
  · exact ⟨Or.inr le_rfl, le_rfl⟩
  · exact ⟨Or.inl (not_lt.mp h1), not_lt.mp h2⟩

/-- **C97 (starting commands).**  For a square flat map: returned exactly when the flat can be converted, the height difference has
its shape, and no actuator has the same height in two slices of the reference cube; no height difference, however large, is
refused.  Otherwise `ValueError`. -/
theorem C97_starting_commands (I : CubicInterp K) (flat delta : Arr2 K) (cube : Arr3 K) (v : List K) (hv : v.Pairwise (· < ·))
    (hsq : flat.nr = flat.nc) (hpos : 0 < flat.nr) :
    ((∃ o, startingCommands I flat delta cube v = .ok o) ↔ Convertible flat cube v ∧ (delta.nr = flat.nr ∧ delta.nc = flat.nc) ∧
      ∀ (i j : ℕ) (h : List K), ActuatorHeights cube i j h → h.Nodup) ∧
    (startingCommands I flat delta cube v = .error .valueError ↔ ¬ (Convertible flat cube v ∧ (delta.nr = flat.nr ∧ delta.nc = flat.nc) ∧
      ∀ (i j : ℕ) (h : List K), ActuatorHeights cube i j h → h.Nodup)) := by
  obtain ⟨b1, b2⟩ := C97_heights I flat cube v hv hsq hpos
  -- with a convertible flat and a difference of the same shape
  have main : Convertible flat cube v → delta.nr = flat.nr → delta.nc = flat.nc →
      ((∀ (i j : ℕ) (h : List K), ActuatorHeights cube i j h → h.Nodup) → ∃ o, startingCommands I flat delta cube v = .ok o) ∧
      (¬ (∀ (i j : ℕ) (h : List K), ActuatorHeights cube i j h → h.Nodup) → startingCommands I flat delta cube v = .error .valueError) := by
    intro hc hr hcc
    obtain ⟨fh, hfh⟩ := b1.mpr hc
    have s1 := heights_shape I _ _ _ _ hfh
    obtain ⟨⟨c1, c2, c3⟩, c4, -⟩ := hc
    have hs : shapesClose flat delta := by
      unfold shapesClose isClose
      rw [hr, hcc, sub_self, sub_self, abs_zero]
      exact ⟨by positivity, by positivity⟩
    have hz : zipPx (fun a b => a + b) fh delta = .ok ⟨fh.nr, fh.nc, fun i j =>
        fh.val i j + delta.val (i.cast (by omega)) (j.cast (by omega))⟩ := by
      unfold zipPx; rw [dif_pos ⟨by omega, by omega⟩]
    have sl : ∀ k (hk : k < cube.ns), cube.slice k = some ⟨cube.nr, cube.nc, fun i j => cube.val ⟨k, hk⟩ i j⟩ := by
      intro k hk; unfold Arr3.slice; rw [dif_pos hk]
    have e : startingCommands I flat delta cube v = commandsForHeights I ⟨fh.nr, fh.nc, fun i j =>
        clipHeight (((⟨cube.nr, cube.nc, fun i j => cube.val ⟨0, by omega⟩ i j⟩ : Arr2 K).px (i : ℕ) (j : ℕ)).getD 0)
          (((⟨cube.nr, cube.nc, fun i j => cube.val ⟨cube.ns - 1, by omega⟩ i j⟩ : Arr2 K).px (i : ℕ) (j : ℕ)).getD 0)
          (fh.val i j + delta.val (i.cast (by omega)) (j.cast (by omega)))⟩ cube v := by
      unfold startingCommands
      rw [if_pos hs, hfh, res_ok_bind, hz, res_ok_bind, sl 0 (by omega), sl (cube.ns - 1) (by omega)]
      dsimp only
      rw [if_pos ⟨by omega, by omega⟩]
    obtain ⟨d1, d2⟩ := C97_commands I (⟨fh.nr, fh.nc, fun i j =>
        clipHeight (((⟨cube.nr, cube.nc, fun i j => cube.val ⟨0, by omega⟩ i j⟩ : Arr2 K).px (i : ℕ) (j : ℕ)).getD 0)
          (((⟨cube.nr, cube.nc, fun i j => cube.val ⟨cube.ns - 1, by omega⟩ i j⟩ : Arr2 K).px (i : ℕ) (j : ℕ)).getD 0)
          (fh.val i j + delta.val (i.cast (by omega)) (j.cast (by omega)))⟩ : Arr2 K) cube v hv (by show fh.nr = fh.nc; omega)
        (by show 0 < fh.nr; omega)
    rw [e]
    constructor
    · intro hn
      refine d1.mpr ⟨⟨by show cube.nr = fh.nr; omega, by show cube.nc = fh.nc; omega, c3⟩, c4, ?_⟩
      intro i j c h hp hh
      refine ⟨hn i j h hh, ?_⟩
      have hin := px_some_inB hp
      dsimp only at hin
      have hv' := Arr2.px_val (⟨fh.nr, fh.nc, fun i j =>
        clipHeight (((⟨cube.nr, cube.nc, fun i j => cube.val ⟨0, by omega⟩ i j⟩ : Arr2 K).px (i : ℕ) (j : ℕ)).getD 0)
          (((⟨cube.nr, cube.nc, fun i j => cube.val ⟨cube.ns - 1, by omega⟩ i j⟩ : Arr2 K).px (i : ℕ) (j : ℕ)).getD 0)
          (fh.val i j + delta.val (i.cast (by omega)) (j.cast (by omega)))⟩ : Arr2 K) ⟨i, by simpa using hin.1.2⟩ ⟨j, by simpa using hin.2.2⟩
      rw [hv'] at hp
      have hp := Option.some.inj hp
      have ci : i < cube.nr := by omega
      have cj : j < cube.nc := by omega
      have l0 := Arr2.px_val (⟨cube.nr, cube.nc, fun i j => cube.val ⟨0, by omega⟩ i j⟩ : Arr2 K) ⟨i, ci⟩ ⟨j, cj⟩
      have l1 := Arr2.px_val (⟨cube.nr, cube.nc, fun i j => cube.val ⟨cube.ns - 1, by omega⟩ i j⟩ : Arr2 K) ⟨i, ci⟩ ⟨j, cj⟩
      dsimp only at hp l0 l1
      rw [l0, l1, Option.getD_some, Option.getD_some] at hp
      have hlist : h = List.ofFn fun k => cube.val k ⟨i, ci⟩ ⟨j, cj⟩ := by
        unfold ActuatorHeights Arr3.column at hh
        rw [dif_pos ⟨ci, cj⟩] at hh
        exact (Except.ok.inj hh).symm
      have m0 : cube.val ⟨0, by omega⟩ ⟨i, ci⟩ ⟨j, cj⟩ ∈ h := by rw [hlist, List.mem_ofFn]; exact ⟨_, rfl⟩
      have m1 : cube.val ⟨cube.ns - 1, by omega⟩ ⟨i, ci⟩ ⟨j, cj⟩ ∈ h := by rw [hlist, List.mem_ofFn]; exact ⟨_, rfl⟩
      obtain ⟨q1, q2⟩ := clipHeight_between (cube.val ⟨0, by omega⟩ ⟨i, ci⟩ ⟨j, cj⟩) (cube.val ⟨cube.ns - 1, by omega⟩ ⟨i, ci⟩ ⟨j, cj⟩)
        (fh.val ⟨i, by simpa using hin.1.2⟩ ⟨j, by simpa using hin.2.2⟩ + delta.val ⟨i, by omega⟩ ⟨j, by omega⟩)
      rw [← hp]
      exact ⟨q1.elim (fun q => ⟨_, m0, q⟩) (fun q => ⟨_, m1, q⟩), _, m1, q2⟩
    · intro hn
      refine d2.mpr fun hall => hn ?_
      intro i j h hh
      have hin : i < cube.nr ∧ j < cube.nc := by
        by_contra hcn
        unfold ActuatorHeights Arr3.column at hh
        rw [dif_neg hcn] at hh
        cases hh
      exact (hall.2.2 i j _ h (Arr2.px_val _ ⟨i, by show i < fh.nr; omega⟩ ⟨j, by show j < fh.nc; omega⟩) hh).1
  refine one_refusal (fun h => ?_) (fun h => (main h.1 h.2.1.1 h.2.1.2).1 h.2.2)
  by_cases h1 : Convertible flat cube v
  · by_cases h2 : delta.nr = flat.nr ∧ delta.nc = flat.nc
    · exact (main h1 h2.1 h2.2).2 fun h3 => h ⟨h1, h2, h3⟩
    · unfold startingCommands
      by_cases hs : shapesClose flat delta
      · obtain ⟨fh, hfh⟩ := b1.mpr h1
        have s1 := heights_shape I _ _ _ _ hfh
        have : zipPx (fun a b => a + b) fh delta = .error .valueError := by
          unfold zipPx; rw [dif_neg (by omega)]
        rw [if_pos hs, hfh, res_ok_bind, this]
        rfl
      · rw [if_neg hs]
  · unfold startingCommands
    by_cases hs : shapesClose flat delta
    · rw [if_pos hs, b2.mpr h1]; rfl
    · rw [if_neg hs]

end

/-! ### Instances -/

example : (∃ o, getFp 1 (1/2) 64 8 = .ok o) ∧ getFp 1 (-2) 64 8 = .error .valueError ∧ getFp 0 1 64 8 = .error .typeError :=
  ⟨(C97_get_fp ..).1.mpr (by norm_num [abs_of_pos]), (C97_get_fp ..).2.2.mpr (by norm_num), (C97_get_fp ..).2.1.mpr (by norm_num)⟩

example (S : Spline) : (∃ o, resampleInfFunc S (Arr2.full 91 91 1) 10 1 = .ok o) ∧ (∃ o, resampleInfFunc S (Arr2.full 1 1 1) 1 1 = .ok o) ∧
    resampleInfFunc S (Arr2.full 3 91 1) 10 1 = .error (.user 0) ∧ resampleInfFunc S (Arr2.full 91 91 1) 0 0 = .error .typeError :=
  ⟨(C97_resample ..).1.mpr (by norm_num [Arr2.full]), (C97_resample ..).1.mpr (by norm_num), (C97_resample ..).2.2.mpr (by norm_num [Arr2.full]),
    (C97_resample ..).2.1.mpr (by norm_num)⟩

example (e : Arr2 ℂ) (h : e.nr = 64 ∧ e.nc = 80) : (∃ o, fresnelprop e 1 (-1) 10 8 = .ok o) ∧ fresnelprop e 1 (-1) 200 9 = .error .valueError :=
  ⟨(C97_fresnelprop ..).1.mpr (by norm_num [h.1, h.2]), (C97_fresnelprop ..).2.2.mpr (by norm_num [h.1, h.2])⟩

example (e fp : Arr2 ℂ) (h : e.nr = 64 ∧ e.nc = 80) (hf : fp.nr = 70 ∧ fp.nc = 70) :
    (∃ o, fresnelpropFp e 1 70 fp = .ok o) ∧ fresnelpropFp e 1 71 fp = .error .valueError ∧ (∃ o, fresnelpropFp e 0 71 fp = .ok o) :=
  ⟨(C97_fresnelprop_fp e 1 70 fp (by omega) (by omega)).1.mpr (by norm_num [hf.1, hf.2]),
    (C97_fresnelprop_fp e 1 71 fp (by omega) (by omega)).2.2.mpr (by norm_num [hf.1, hf.2]),
    (C97_fresnelprop_fp e 0 71 fp (by omega) (by omega)).1.mpr (by norm_num)⟩

example (T : Shift) (a b : Arr2 ℝ) (h : a.nr = 64 ∧ a.nc = 64) (hb : b.nr = 64 ∧ b.nc = 64) :
    (∃ o, psffit T ⟨100, 1.5, 1⟩ a b = .ok o) ∧ psffit T ⟨0, 1.5, 1⟩ a b = .error .valueError :=
  ⟨(C97_psffit ..).1.mpr (by norm_num [h, hb]), (C97_psffit ..).2.mpr (by norm_num [h, hb])⟩

/-- An annulus then a bow tie; the same file with the second outer radius missing; with a misspelt shape; with the first annulus inside out;
and with an opening angle of zero. -/
example :
    (∃ o, genDarkHole 60 80 [⟨some 0, some 1, some "annulus", none, none, some 3, some 9, none, none⟩,
      ⟨some 0, some 0, some "bowtie", none, none, some 3, some 9, some 65, some 0⟩] = .ok o) ∧
    genDarkHole 60 80 [⟨some 0, some 1, some "annulus", none, none, some 3, some 9, none, none⟩,
      ⟨some 0, some 0, some "bowtie", none, none, some 3, none, some 65, some 0⟩] = .error .keyError ∧
    genDarkHole 60 80 [⟨some 0, some 1, some "annulus", none, none, some 3, some 9, none, none⟩,
      ⟨some 0, some 0, some "bow tie", none, none, some 3, some 9, some 65, some 0⟩] = .error .valueError ∧
    genDarkHole 60 80 [⟨some 0, some 1, some "annulus", none, none, some 9, some 3, none, none⟩,
      ⟨some 0, some 0, some "bowtie", none, none, some 3, none, some 65, some 0⟩] = .error .valueError ∧
    genDarkHole 60 80 [⟨some 0, some 0, some "bowtie", none, none, some 3, some 9, some 0, some 0⟩] = .error .typeError := by
  have good : GoodEntry ⟨some 0, some 1, some "annulus", none, none, some 3, some 9, none, none⟩ :=
    .annulus 0 1 3 9 rfl rfl rfl rfl rfl (by norm_num) (by norm_num)
  refine ⟨(C97_dark_hole ..).1.mpr ⟨by norm_num, ?_⟩, ?_, ?_, ?_, ?_⟩
  · intro s hs
    rcases List.mem_cons.mp hs with rfl | hs
    · exact good
    rcases List.mem_cons.mp hs with rfl | hs
    · exact .wedge "bowtie" 0 0 3 9 65 0 rfl rfl rfl (Or.inr rfl) rfl rfl rfl rfl (by norm_num) (by norm_num) (by norm_num)
    · cases hs
  · refine ((C97_dark_hole 60 80 _).2.2 (by norm_num) (by norm_num) [_] _ [] rfl fun t ht => by rw [List.mem_singleton.mp ht]; exact good).1 ?_
    simp [MissingKey]
  · refine ((C97_dark_hole 60 80 _).2.2 (by norm_num) (by norm_num) [_] _ [] rfl fun t ht => by rw [List.mem_singleton.mp ht]; exact good).2.1 ?_ ?_
    · simp [MissingKey]
    · left; simp [UnknownShape]
  · refine ((C97_dark_hole 60 80 _).2.2 (by norm_num) (by norm_num) [] _ _ rfl fun t ht => by cases ht).2.1 ?_ ?_
    · simp [MissingKey]
    · right; exact ⟨Or.inl rfl, 9, 3, rfl, rfl, by norm_num, by norm_num, by norm_num⟩
  · refine ((C97_dark_hole 60 80 _).2.2 (by norm_num) (by norm_num) [] _ [] rfl fun t ht => by cases ht).2.2 ?_ ?_ ?_ ?_
    · rintro (⟨x, y, w, h, hx, hy, hs, -⟩ | ⟨x, y, ri, ro, hx, hy, hs, -⟩ | ⟨name, x, y, ri, ro, op, cl, hx, hy, hs, hn, hi, ho, ha, hc, -, -, pa⟩)
      · simp at hs
      · simp at hs
      · cases ha; exact lt_irrefl _ pa
    · simp [MissingKey]
    · simp [UnknownShape]
    · rintro ⟨-, ri, ro, hi, ho, -, -, h⟩
      cases hi; cases ho
      norm_num at h

example : (∃ o, grid 48 4 4 3 3 (1 : ℝ) = .ok o) ∧ grid 48 4 4 4 3 (1 : ℝ) = .error .valueError ∧ grid 48 4 4 3 (-1) (1 : ℝ) = .error .typeError :=
  ⟨(C97_grid ..).1.mpr (by norm_num), (C97_grid ..).2.2.mpr (by norm_num), (C97_grid ..).2.1.mpr (by norm_num)⟩

example : (∃ o, dmZernike 48 46.3 1 4 = .ok o) ∧ dmZernike 48 46.3 1 0 = .error .typeError :=
  ⟨(C97_dm_zernike ..).1.mpr (by norm_num), (C97_dm_zernike ..).2.mpr (by norm_num)⟩

example : (∃ o, solver [1, 2, 3] [5] 0 1 true = .ok o) ∧ solver [1, 2] [5] 0 1 true = .error .valueError ∧
    solver [1, 2, 3] [5] 0 0 false = .error .valueError :=
  ⟨(C97_thin_film ..).1.mpr ⟨rfl, ⟨le_rfl, by positivity⟩, one_pos⟩, (C97_thin_film [1, 2] [5] 0 1 true).2.mpr (by simp),
    (C97_thin_film [1, 2, 3] [5] 0 0 false).2.mpr (by simp)⟩

example (H : CircleFinder) (a : Arr2 ℝ) : fitCircle H a 20 10 1 = .error .valueError ∧ fitCircle H a 20 40 0 = .error .typeError :=
  ⟨(C97_fit_circle ..).2.1.mpr (by norm_num), (C97_fit_circle ..).1.mpr (by norm_num)⟩

end Coralign.Props
