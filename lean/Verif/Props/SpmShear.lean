import Verif.Model.SpmShear
import Verif.Props.AmpThresh
import Verif.Props.DrUtil
import Verif.Props.PadCrop
import Verif.Props.PsfFitMean
import Verif.Props.Unwrap

/-!
# C63: the shear of the beam between two sets of phase retrievals
-/

namespace Coralign.Props
open Coralign

/-- Specification: two arrays have the same shape. -/
def SameShape {α β : Type} (a : Arr2 α) (b : Arr2 β) : Prop := a.nr = b.nr ∧ a.nc = b.nc

/-- Specification: the three maps of one data set have the same shape. -/
def ConsistentSet (amp unpoked poked : Arr2 ℝ) : Prop := SameShape unpoked amp ∧ SameShape poked amp

/-- Specification: pixel by pixel difference of two arrays of the shape of the first. -/
noncomputable def difference (a b : Arr2 ℝ) : Arr2 ℝ := ⟨a.nr, a.nc, fun i j => a.val i j - b.zext (i : ℕ) (j : ℕ)⟩

theorem bcastAxis_self (n : ℕ) : bcastAxis n n = some n := by unfold bcastAxis; rw [if_pos rfl]

theorem bcastPx_self (a : Arr2 ℝ) (i : Fin a.nr) (j : Fin a.nc) : a.bcastPx i j = a.val i j := by
  unfold Arr2.bcastPx
  have hi : (if a.nr = 1 then 0 else (i : ℕ)) = (i : ℕ) := by have := i.isLt; split <;> omega
  have hj : (if a.nc = 1 then 0 else (j : ℕ)) = (j : ℕ) := by have := j.isLt; split <;> omega
  rw [hi, hj]
  exact Arr2.zext_val a i j

theorem npSub_same (a b : Arr2 ℝ) (h : SameShape b a) : npSub a b = .ok (difference a b) := by
  obtain ⟨n, m, f⟩ := a
  obtain ⟨n', m', g⟩ := b
  obtain ⟨h1, h2⟩ := h
  simp only at h1 h2
  subst h1; subst h2
  unfold npSub
  simp only [bcastAxis_self]
  unfold difference
  congr 2
  funext i j
  rw [bcastPx_self ⟨n', m', f⟩ i j, bcastPx_self ⟨n', m', g⟩ i j, Arr2.zext_val ⟨n', m', g⟩ i j]

/-- An unwrap with the amplitude's own mask returns exactly when the arguments fit and the amplitude can be thresholded. -/
theorem unwrap_default_ok (U : Unwrapper) (R : SmallRemover) (d amp : Arr2 ℝ) (hs : SameShape d amp) (ha : ∀ i j, 0 ≤ amp.val i j)
    (t : Arr2 Bool) (ht : ampthresh amp 21 = .ok t) :
    ∃ u m, unwrap U R d amp 21 0 64 true none = .ok (u, m) ∧ SameShape u d ∧ SameShape m d := by
  have hc : unwrapChecks d amp 21 64 none = .ok () := (unwrapChecks_ok _ _ _ _ _).mpr ⟨hs, ha, by norm_num, by norm_num, by intro b hb; cases hb⟩
  have hm : chooseMask R d amp 21 64 true none = .ok (R.run t 64) := by unfold chooseMask; simp only [if_true]; rw [ht]
  obtain ⟨s1, s2⟩ := ampthresh_shape _ _ _ ht
  refine ⟨fillOutside (U.run d (R.run t 64)) (R.run t 64) 0, R.run t 64, by unfold unwrap; rw [hc]; simp only; rw [hm], ⟨U.nr_eq _ _, U.nc_eq _ _⟩, ?_, ?_⟩
  · rw [R.nr_eq, s1, hs.1]
  · rw [R.nc_eq, s2, hs.2]

theorem pokePhase_eq (U : Unwrapper) (R : SmallRemover) (S : Solver) (amp un pk d u o : Arr2 ℝ) (m : Arr2 Bool) (hd : npSub pk un = .ok d)
    (hu : unwrap U R d amp 21 0 64 true none = .ok (u, m)) (ho : removePistonTipTilt S u m = .ok o) : pokePhase U R S amp un pk = .ok (o, m) := by
  unfold pokePhase
  rw [hd]
  change (unwrap U R d amp 21 0 64 true none >>= _) = _
  rw [hu]
  change (removePistonTipTilt S u m >>= _) = _
  rw [ho]
  rfl

theorem pokePhase_ok (U : Unwrapper) (R : SmallRemover) (S : Solver) (amp un pk d : Arr2 ℝ) (hd : npSub pk un = .ok d) (hs : SameShape d amp)
    (ha : ∀ i j, 0 ≤ amp.val i j) (t : Arr2 Bool) (ht : ampthresh amp 21 = .ok t) :
    ∃ o m, pokePhase U R S amp un pk = .ok (o, m) ∧ SameShape o amp ∧ SameShape m amp := by
  obtain ⟨u, m, hu, su, sm⟩ := unwrap_default_ok U R d amp hs ha t ht
  obtain ⟨o, ho, h1, h2, -, -⟩ := C25_residual S u m (su.1.trans sm.1.symm) (su.2.trans sm.2.symm)
  exact ⟨o, m, pokePhase_eq U R S amp un pk d u o m hd hu ho, ⟨h1.trans (su.1.trans hs.1), h2.trans (su.2.trans hs.2)⟩,
    ⟨sm.1.trans hs.1, sm.2.trans hs.2⟩⟩

/-- The PSF fit of two images of the same non-empty shape always returns. -/
theorem psffit_returns (T : Shift) (cfg : PsfConfig) (hcfg : cfg.upsample = 1 ∨ (0 < cfg.upsample ∧ 0 < cfg.pad)) (a b : Arr2 ℝ)
    (h : SameShape a b) (hr : 0 < a.nr) (hc : 0 < a.nc) : ∃ r, psffit T cfg a b = .ok r := by
  unfold psffit
  rw [if_neg (by rintro (h' | h'); exacts [h' h.1, h' h.2]), if_neg (by omega)]
  simp only
  by_cases hu : cfg.upsample ≠ 1
  · obtain ⟨h1, h2⟩ := hcfg.resolve_left hu
    rw [if_pos hu]
    unfold refineShift
    have hreg : ¬ ⌈cfg.upsample * cfg.pad⌉ ≤ 0 := by
      push Not
      exact Int.ceil_pos.mpr (mul_pos h1 h2)
    simp only [if_neg hreg]
    unfold computeUpsampledDft
    simp only
    rw [if_neg]
    · exact ⟨_, rfl⟩
    · rintro (h' | h' | h')
      · exact h1.ne' h'
      · have : a.nr = 0 := h'; omega
      · have : a.nc = 0 := h'; omega
  · rw [if_neg hu]
    exact ⟨_, rfl⟩

/-- The fit, once both phase changes are known. -/
theorem fitSpmShear_eq (U : Unwrapper) (R : SmallRemover) (S : Solver) (T : Shift) (cfg : PsfConfig) (amp0 un0 pk0 amp1 un1 pk1 : Arr2 ℝ)
    (h0 : ConsistentSet amp0 un0 pk0) (h1 : SameShape un1 amp1) (h2 : SameShape pk1 amp0) (r0 r1 : Arr2 ℝ × Arr2 Bool)
    (e0 : pokePhase U R S amp0 un0 pk0 = .ok r0) (e1 : pokePhase U R S amp1 un1 pk1 = .ok r1) (p : Arr2 ℝ) (q : Arr2 Bool)
    (ep : padCrop r1.1 [(amp0.nr : ℤ), (amp0.nc : ℤ)] 0 = .ok p) (eq : padCrop r1.2 [(amp0.nr : ℤ), (amp0.nc : ℤ)] false = .ok q) :
    fitSpmShear U R S T cfg amp0 un0 pk0 amp1 un1 pk1 = (do let s ← psffit T cfg (maskTimes r0.2 r0.1) (maskTimes q p); .ok (s.1.2, s.1.1) : Res _) := by
  obtain ⟨⟨a1, a2⟩, a3, a4⟩ := h0
  obtain ⟨b1, b2⟩ := h1
  obtain ⟨c1, c2⟩ := h2
  unfold fitSpmShear
  rw [if_neg (by omega), if_neg (by omega), if_neg (by omega), if_neg (by omega), e0]
  change (pokePhase U R S amp1 un1 pk1 >>= _) = _
  rw [e1]
  change (padCrop r1.1 [(amp0.nr : ℤ), (amp0.nc : ℤ)] 0 >>= _) = _
  rw [ep]
  change (padCrop r1.2 [(amp0.nr : ℤ), (amp0.nc : ℤ)] false >>= _) = _
  rw [eq]
  rfl

theorem maskTimes_vanishes (o : Arr2 ℝ) (m : Arr2 Bool) (hs : SameShape m o) (hv : VanishesOutside o m) : maskTimes m o = o := by
  unfold maskTimes
  obtain ⟨n, k, f⟩ := o
  congr 1
  funext i j
  by_cases h : m.px (i : ℕ) (j : ℕ) = some true
  · rw [if_pos h]
  · rw [if_neg h]
    have h1 : m.nr = n := hs.1
    have h2 : m.nc = k := hs.2
    have hi : (i : ℕ) < n := i.isLt
    have hj : (j : ℕ) < k := j.isLt
    have hb := (Arr2.px_isSome m (i : ℕ) (j : ℕ)).mpr ⟨⟨by omega, by omega⟩, ⟨by omega, by omega⟩⟩
    obtain ⟨b, hb⟩ := Option.isSome_iff_exists.mp hb
    cases b with
    | true => exact absurd hb h
    | false =>
      have := hv _ _ hb
      have e := Arr2.px_val (⟨n, k, f⟩ : Arr2 ℝ) i j
      rw [e] at this
      exact (Option.some.inj this).symm

/-- **C63 (accepts, partial).** Two consistent data sets of one common shape, with amplitudes that can be thresholded and a valid fit
configuration, are always accepted.  Missing: data sets of different shapes, which are refused (`C63_different_shapes_rejected`). -/
theorem C63_accepts_partial (U : Unwrapper) (R : SmallRemover) (S : Solver) (T : Shift) (cfg : PsfConfig)
    (hcfg : cfg.upsample = 1 ∨ (0 < cfg.upsample ∧ 0 < cfg.pad)) (amp0 un0 pk0 amp1 un1 pk1 : Arr2 ℝ)
    (h0 : ConsistentSet amp0 un0 pk0) (h1 : ConsistentSet amp1 un1 pk1) (h01 : SameShape amp1 amp0) (hr : 0 < amp0.nr) (hc : 0 < amp0.nc)
    (ha0 : ∀ i j, 0 ≤ amp0.val i j) (ha1 : ∀ i j, 0 ≤ amp1.val i j) (t0 t1 : Arr2 Bool)
    (ht0 : ampthresh amp0 21 = .ok t0) (ht1 : ampthresh amp1 21 = .ok t1) :
    ∃ x y, fitSpmShear U R S T cfg amp0 un0 pk0 amp1 un1 pk1 = .ok (x, y) := by
  obtain ⟨o0, m0, e0, s0, s0'⟩ := pokePhase_ok U R S amp0 un0 pk0 _ (npSub_same pk0 un0 ⟨h0.1.1.trans h0.2.1.symm, h0.1.2.trans h0.2.2.symm⟩)
    ⟨h0.2.1, h0.2.2⟩ ha0 t0 ht0
  obtain ⟨o1, m1, e1, s1, s1'⟩ := pokePhase_ok U R S amp1 un1 pk1 _ (npSub_same pk1 un1 ⟨h1.1.1.trans h1.2.1.symm, h1.1.2.trans h1.2.2.symm⟩)
    ⟨h1.2.1, h1.2.2⟩ ha1 t1 ht1
  have ep : padCrop o1 [(amp0.nr : ℤ), (amp0.nc : ℤ)] 0 = .ok o1 := by
    rw [← h01.1, ← h01.2, ← s1.1, ← s1.2]
    exact C03_same_shape_is_copy o1 0 (by have := s1.1; have := h01.1; omega) (by have := s1.2; have := h01.2; omega)
  have eq : padCrop m1 [(amp0.nr : ℤ), (amp0.nc : ℤ)] false = .ok m1 := by
    rw [← h01.1, ← h01.2, ← s1'.1, ← s1'.2]
    exact C03_same_shape_is_copy m1 false (by have := s1'.1; have := h01.1; omega) (by have := s1'.2; have := h01.2; omega)
  rw [fitSpmShear_eq U R S T cfg amp0 un0 pk0 amp1 un1 pk1 h0 h1.1 ⟨h1.2.1.trans h01.1, h1.2.2.trans h01.2⟩ _ _ e0 e1 o1 m1 ep eq]
  obtain ⟨r, hr'⟩ := psffit_returns T cfg hcfg (maskTimes m0 o0) (maskTimes m1 o1)
    ⟨s0.1.trans (h01.1.symm.trans s1.1.symm), s0.2.trans (h01.2.symm.trans s1.2.symm)⟩ (by change 0 < o0.nr; rw [s0.1]; exact hr)
    (by change 0 < o0.nc; rw [s0.2]; exact hc)
  simp only
  rw [hr']
  exact ⟨_, _, rfl⟩

/-- **C63 (the full claim fails).** Two consistent data sets of different shapes are always refused with ValueError, because the shape of
the second poked phase is compared with the first data set. -/
theorem C63_different_shapes_rejected (U : Unwrapper) (R : SmallRemover) (S : Solver) (T : Shift) (cfg : PsfConfig)
    (amp0 un0 pk0 amp1 un1 pk1 : Arr2 ℝ) (h0 : ConsistentSet amp0 un0 pk0) (h1 : ConsistentSet amp1 un1 pk1) (hne : ¬ SameShape amp1 amp0) :
    fitSpmShear U R S T cfg amp0 un0 pk0 amp1 un1 pk1 = .error .valueError := by
  obtain ⟨⟨a1, a2⟩, a3, a4⟩ := h0
  obtain ⟨⟨b1, b2⟩, b3, b4⟩ := h1
  unfold fitSpmShear
  rw [if_neg (by omega), if_neg (by omega), if_neg (by omega), if_pos]
  by_contra hc
  exact hne ⟨by omega, by omega⟩

theorem npSub_shape (a b d : Arr2 ℝ) (h : npSub a b = .ok d) : (d.nr = a.nr ∨ a.nr = 1) ∧ (d.nc = a.nc ∨ a.nc = 1) := by
  unfold npSub at h
  cases h1 : bcastAxis a.nr b.nr with
  | none => rw [h1] at h; cases h
  | some n =>
    cases h2 : bcastAxis a.nc b.nc with
    | none => rw [h1, h2] at h; cases h
    | some m =>
      rw [h1, h2] at h
      simp only [Except.ok.injEq] at h
      subst h
      unfold bcastAxis at h1 h2
      simp only
      constructor
      · split at h1
        · injection h1 with h1; omega
        · split at h1
          · omega
          · split at h1
            · injection h1 with h1; omega
            · cases h1
      · split at h2
        · injection h2 with h2; omega
        · split at h2
          · omega
          · split at h2
            · injection h2 with h2; omega
            · cases h2

/-- **C63.** The shape checks: a phase map of the first set, or the second unpoked phase, which does not have the shape of its own amplitude is a
`ValueError`, and so is a second poked phase which does not have the shape of the first amplitude. -/
theorem C63_shape_errors (U : Unwrapper) (R : SmallRemover) (S : Solver) (T : Shift) (cfg : PsfConfig) (amp0 un0 pk0 amp1 un1 pk1 : Arr2 ℝ)
    (h : ¬ ConsistentSet amp0 un0 pk0 ∨ ¬ SameShape un1 amp1 ∨ ¬ SameShape pk1 amp0) :
    fitSpmShear U R S T cfg amp0 un0 pk0 amp1 un1 pk1 = .error .valueError := by
  unfold fitSpmShear
  by_cases c1 : un0.nr ≠ amp0.nr ∨ un0.nc ≠ amp0.nc
  · rw [if_pos c1]
  rw [if_neg c1]
  by_cases c2 : pk0.nr ≠ amp0.nr ∨ pk0.nc ≠ amp0.nc
  · rw [if_pos c2]
  rw [if_neg c2]
  by_cases c3 : un1.nr ≠ amp1.nr ∨ un1.nc ≠ amp1.nc
  · rw [if_pos c3]
  rw [if_neg c3]
  by_cases c4 : pk1.nr ≠ amp0.nr ∨ pk1.nc ≠ amp0.nc
  · rw [if_pos c4]
  rcases h with h | h | h
  · exact absurd ⟨⟨by omega, by omega⟩, by omega, by omega⟩ h
  · exact absurd ⟨by omega, by omega⟩ h
  · exact absurd ⟨by omega, by omega⟩ h

/-- A first poked phase with a column too many. -/
example (U : Unwrapper) (R : SmallRemover) (S : Solver) (T : Shift) (cfg : PsfConfig) (a b c : Arr2 ℝ) :
    fitSpmShear U R S T cfg (Arr2.full 4 4 1) (Arr2.full 4 4 0) (Arr2.full 4 5 0) a b c = .error .valueError :=
  C63_shape_errors U R S T cfg _ _ _ _ _ _ (Or.inl fun h => absurd h.2.2 (by decide))

/-- **C63 (rejects, partial).** A data set whose maps differ in shape is never accepted, when the first amplitude has at least two rows and
two columns.  Missing: single-row and single-column images (`C63_broadcast_accepted`). -/
theorem C63_rejects_partial (U : Unwrapper) (R : SmallRemover) (S : Solver) (T : Shift) (cfg : PsfConfig)
    (amp0 un0 pk0 amp1 un1 pk1 : Arr2 ℝ) (hr : amp0.nr ≠ 1) (hc : amp0.nc ≠ 1)
    (h : ¬ (ConsistentSet amp0 un0 pk0 ∧ ConsistentSet amp1 un1 pk1)) :
    ∃ e, fitSpmShear U R S T cfg amp0 un0 pk0 amp1 un1 pk1 = .error e := by
  unfold fitSpmShear
  by_cases c1 : un0.nr ≠ amp0.nr ∨ un0.nc ≠ amp0.nc
  · rw [if_pos c1]; exact ⟨_, rfl⟩
  rw [if_neg c1]
  by_cases c2 : pk0.nr ≠ amp0.nr ∨ pk0.nc ≠ amp0.nc
  · rw [if_pos c2]; exact ⟨_, rfl⟩
  rw [if_neg c2]
  by_cases c3 : un1.nr ≠ amp1.nr ∨ un1.nc ≠ amp1.nc
  · rw [if_pos c3]; exact ⟨_, rfl⟩
  rw [if_neg c3]
  by_cases c4 : pk1.nr ≠ amp0.nr ∨ pk1.nc ≠ amp0.nc
  · rw [if_pos c4]; exact ⟨_, rfl⟩
  rw [if_neg c4]
  have hcon0 : ConsistentSet amp0 un0 pk0 := ⟨⟨by omega, by omega⟩, by omega, by omega⟩
  have hne : ¬ SameShape pk1 amp1 := fun hs => h ⟨hcon0, ⟨by omega, by omega⟩, hs⟩
  cases e0 : pokePhase U R S amp0 un0 pk0 with
  | error e => exact ⟨e, rfl⟩
  | ok r0 =>
    have e1 : ∃ e, pokePhase U R S amp1 un1 pk1 = .error e := by
      unfold pokePhase
      cases hd : npSub pk1 un1 with
      | error e => exact ⟨e, rfl⟩
      | ok d =>
        obtain ⟨d1, d2⟩ := npSub_shape pk1 un1 d hd
        obtain ⟨e, he⟩ := C15_unwrap_rejects U R d amp1 21 0 64 true none (by
          rintro ⟨⟨g1, g2⟩, -⟩
          exact hne ⟨by omega, by omega⟩)
        refine ⟨e, ?_⟩
        change (unwrap U R d amp1 21 0 64 true none >>= _) = _
        rw [he]
        rfl
    obtain ⟨e, he⟩ := e1
    refine ⟨e, ?_⟩
    change (pokePhase U R S amp1 un1 pk1 >>= _) = _
    rw [he]
    rfl

theorem npSub_fn {n m : ℕ} (q p : Fin n → Fin m → ℝ) : npSub ⟨n, m, q⟩ ⟨n, m, p⟩ = .ok ⟨n, m, fun i j => q i j - p i j⟩ := by
  rw [npSub_same ⟨n, m, q⟩ ⟨n, m, p⟩ ⟨rfl, rfl⟩]
  unfold difference
  congr 2
  funext i j
  rw [Arr2.zext_val ⟨n, m, p⟩ i j]

theorem shear_of_fit (U : Unwrapper) (R : SmallRemover) (S : Solver) (T : Shift) (cfg : PsfConfig)
    {n m : ℕ} (a0 p0 q0 a1 p1 q1 f t : Fin n → Fin m → ℝ) (u0 u1 : Arr2 ℝ) (m0 m1 : Arr2 Bool)
    (hu0 : unwrap U R ⟨n, m, fun i j => q0 i j - p0 i j⟩ ⟨n, m, a0⟩ 21 0 64 true none = .ok (u0, m0))
    (hu1 : unwrap U R ⟨n, m, fun i j => q1 i j - p1 i j⟩ ⟨n, m, a1⟩ 21 0 64 true none = .ok (u1, m1))
    (hf : removePistonTipTilt S u0 m0 = .ok ⟨n, m, f⟩) (ht : removePistonTipTilt S u1 m1 = .ok ⟨n, m, t⟩)
    (hf0 : ∃ i j, f i j ≠ 0) (y x amp : ℝ) (hp : psffit T cfg ⟨n, m, f⟩ ⟨n, m, t⟩ = .ok ((y, x), amp)) :
    fitSpmShear U R S T cfg ⟨n, m, a0⟩ ⟨n, m, p0⟩ ⟨n, m, q0⟩ ⟨n, m, a1⟩ ⟨n, m, p1⟩ ⟨n, m, q1⟩ = .ok (x, y) := by
  obtain ⟨i0, j0, -⟩ := hf0
  have hn : 0 < n := Nat.lt_of_le_of_lt (Nat.zero_le _) i0.isLt
  have hm : 0 < m := Nat.lt_of_le_of_lt (Nat.zero_le _) j0.isLt
  have sh0 := (C15_unwrap U R _ _ _ _ _ _ _ _ _ hu0).1.shape
  have sh1 := (C15_unwrap U R _ _ _ _ _ _ _ _ _ hu1).1.shape
  have key : ∀ (u : Arr2 ℝ) (k : Arr2 Bool) (g : Fin n → Fin m → ℝ), u.nr = n ∧ u.nc = m ∧ k.nr = n ∧ k.nc = m →
      removePistonTipTilt S u k = .ok ⟨n, m, g⟩ → maskTimes k ⟨n, m, g⟩ = ⟨n, m, g⟩ := by
    intro u k g hsh hg
    obtain ⟨o, ho, -, -, hv, -⟩ := C25_residual S u k (by omega) (by omega)
    rw [hg] at ho
    injection ho with ho
    subst ho
    exact maskTimes_vanishes _ _ ⟨hsh.2.2.1, hsh.2.2.2⟩ hv
  rw [fitSpmShear_eq U R S T cfg ⟨n, m, a0⟩ ⟨n, m, p0⟩ ⟨n, m, q0⟩ ⟨n, m, a1⟩ ⟨n, m, p1⟩ ⟨n, m, q1⟩ ⟨⟨rfl, rfl⟩, rfl, rfl⟩ ⟨rfl, rfl⟩ ⟨rfl, rfl⟩ (⟨n, m, f⟩, m0) (⟨n, m, t⟩, m1)
    (pokePhase_eq U R S _ _ _ _ _ _ _ (npSub_fn q0 p0) hu0 hf) (pokePhase_eq U R S _ _ _ _ _ _ _ (npSub_fn q1 p1) hu1 ht) ⟨n, m, t⟩ m1
    (C03_same_shape_is_copy ⟨n, m, t⟩ 0 hn hm) (by
      have h1 : m1.nr = n := sh1.2.2.1
      have h2 : m1.nc = m := sh1.2.2.2
      have := C03_same_shape_is_copy m1 false (by omega) (by omega)
      rw [h1, h2] at this
      exact this)]
  simp only
  rw [key u0 m0 f sh0 hf, key u1 m1 t sh1 ht, hp]
  rfl

/-- **C63.** When the second set's unwrapped phase change, without piston, tip and tilt, is the first's moved cyclically by `y` rows and `x`
columns (and possibly brighter), the fit without upsampling returns exactly that shear, as `(x, y)`. -/
theorem C63_recovers_shear (U : Unwrapper) (R : SmallRemover) (S : Solver) (T : Shift) (cfg : PsfConfig) (hcfg : cfg.upsample = 1)
    {n m : ℕ} (a0 p0 q0 a1 p1 q1 f t : Fin n → Fin m → ℝ) (u0 u1 : Arr2 ℝ) (m0 m1 : Arr2 Bool)
    (hu0 : unwrap U R ⟨n, m, fun i j => q0 i j - p0 i j⟩ ⟨n, m, a0⟩ 21 0 64 true none = .ok (u0, m0))
    (hu1 : unwrap U R ⟨n, m, fun i j => q1 i j - p1 i j⟩ ⟨n, m, a1⟩ 21 0 64 true none = .ok (u1, m1))
    (hf : removePistonTipTilt S u0 m0 = .ok ⟨n, m, f⟩) (ht : removePistonTipTilt S u1 m1 = .ok ⟨n, m, t⟩)
    (A : ℝ) (hA : 0 < A) (y x : ℕ) (h : Translated f t A y x) (hf0 : ∃ i j, f i j ≠ 0) (hasym : SignAsymmetric f) :
    ∃ s0 s1 : ℤ, SignedShift n y s0 ∧ SignedShift m x s1 ∧
      fitSpmShear U R S T cfg ⟨n, m, a0⟩ ⟨n, m, p0⟩ ⟨n, m, q0⟩ ⟨n, m, a1⟩ ⟨n, m, p1⟩ ⟨n, m, q1⟩ = .ok ((s1 : ℝ), (s0 : ℝ)) := by
  obtain ⟨s0, s1, e0, e1, amp, hp⟩ := C54_pixel_any_mean T cfg hcfg f t A hA y x h hf0 hasym
  exact ⟨s0, s1, e0, e1, shear_of_fit U R S T cfg a0 p0 q0 a1 p1 q1 f t u0 u1 m0 m1 hu0 hu1 hf ht hf0 s0 s1 amp hp⟩

/-- **C63.** The same with upsampling by any whole factor, for phase changes with three neighbouring non-zero spatial frequencies. -/
theorem C63_recovers_shear_upsampled (U : Unwrapper) (R : SmallRemover) (S : Solver) (T : Shift) (cfg : PsfConfig) (kappa : ℕ) (hk : 1 ≤ kappa)
    (hcfg : cfg.upsample = kappa) {n m : ℕ} (hp : 0 < cfg.pad) (hpn : cfg.pad ≤ n) (hpm : cfg.pad ≤ m)
    (a0 p0 q0 a1 p1 q1 f t : Fin n → Fin m → ℝ) (u0 u1 : Arr2 ℝ) (m0 m1 : Arr2 Bool)
    (hu0 : unwrap U R ⟨n, m, fun i j => q0 i j - p0 i j⟩ ⟨n, m, a0⟩ 21 0 64 true none = .ok (u0, m0))
    (hu1 : unwrap U R ⟨n, m, fun i j => q1 i j - p1 i j⟩ ⟨n, m, a1⟩ 21 0 64 true none = .ok (u1, m1))
    (hf : removePistonTipTilt S u0 m0 = .ok ⟨n, m, f⟩) (ht : removePistonTipTilt S u1 m1 = .ok ⟨n, m, t⟩)
    (A : ℝ) (hA : 0 < A) (y x : ℕ) (h : Translated f t A y x) (p q : ℕ) (hpn' : 2 * (p + 1) < n) (hqm : 2 * (q + 1) < m)
    (h00 : dftAt (Arr2.toC ⟨n, m, f⟩) p q ≠ 0) (h10 : dftAt (Arr2.toC ⟨n, m, f⟩) (p + 1) q ≠ 0) (h01 : dftAt (Arr2.toC ⟨n, m, f⟩) p (q + 1) ≠ 0) :
    ∃ s0 s1 : ℤ, SignedShift n y s0 ∧ SignedShift m x s1 ∧
      fitSpmShear U R S T cfg ⟨n, m, a0⟩ ⟨n, m, p0⟩ ⟨n, m, q0⟩ ⟨n, m, a1⟩ ⟨n, m, p1⟩ ⟨n, m, q1⟩ = .ok ((s1 : ℝ), (s0 : ℝ)) := by
  have hf0 : ∃ i j, f i j ≠ 0 := by
    by_contra hno
    push Not at hno
    apply h00
    unfold dftAt
    refine Finset.sum_eq_zero fun i _ => Finset.sum_eq_zero fun j _ => ?_
    have : (Arr2.toC ⟨n, m, f⟩).val i j = 0 := by
      change ((f i j : ℝ) : ℂ) = 0
      rw [hno i j, Complex.ofReal_zero]
    rw [this]
    simp
  obtain ⟨s0, s1, e0, e1, amp, hps⟩ := C54_subpixel_any_mean T cfg kappa hk hcfg hp hpn hpm f t A hA y x h p q hpn' hqm h00 h10 h01
  exact ⟨s0, s1, e0, e1, shear_of_fit U R S T cfg a0 p0 q0 a1 p1 q1 f t u0 u1 m0 m1 hu0 hu1 hf ht hf0 s0 s1 amp hps⟩

/-! ### Concrete cases -/

theorem mem_pixels_val (a : Arr2 ℝ) (v : ℝ) : v ∈ a.pixels ↔ ∃ i j, a.val i j = v := by
  rw [mem_pixels]
  constructor
  · rintro ⟨i, j, h⟩
    have hb := (Arr2.px_isSome a i j).mp (by rw [h]; rfl)
    rw [Arr2.px_of_inB a hb] at h
    exact ⟨_, _, Option.some.inj h⟩
  · rintro ⟨i, j, h⟩
    exact ⟨i, j, by rw [Arr2.px_val, h]⟩

/-- A faithful unwrapper and a remover that removes nothing. -/
noncomputable def plainUnwrapper : Unwrapper := ⟨fun p _ => p, fun _ _ => rfl, fun _ _ => rfl, fun p m i j v _ hv => ⟨0, by simpa using hv⟩⟩
def plainRemover : SmallRemover := ⟨fun m _ => m, fun _ _ => rfl, fun _ _ => rfl, fun _ _ _ _ h => h⟩

/-- An opening of three pixels. -/
noncomputable def slit (a b : ℕ) (i : Fin 3) (j : Fin 7) : ℝ := if (i : ℕ) = a ∧ b ≤ (j : ℕ) ∧ (j : ℕ) ≤ b + 2 then 1 else 0

/-- A poke of the middle pixel, without piston and tilt over the opening. -/
noncomputable def slitPoke (a b : ℕ) (i : Fin 3) (j : Fin 7) : ℝ :=
  if (i : ℕ) = a ∧ b ≤ (j : ℕ) ∧ (j : ℕ) ≤ b + 2 then (if (j : ℕ) = b + 1 then 2 else -1) else 0

/-- **C63 (a broadcast slips through).** For single-row images an inconsistent second data set can be accepted: here the second poked phase
has one row and the second amplitude two. -/
theorem C63_broadcast_accepted (U : Unwrapper) (S : Solver) (T : Shift) :
    ∃ amp0 un0 pk0 amp1 un1 pk1 : Arr2 ℝ, ¬ ConsistentSet amp1 un1 pk1 ∧
      ∃ x y, fitSpmShear U plainRemover S T ⟨1, 1, 0⟩ amp0 un0 pk0 amp1 un1 pk1 = .ok (x, y) := by
  have thr : ∀ n : ℕ, 0 < n → ∃ t, ampthresh (⟨n, 2, fun _ j => if (j : ℕ) = 0 then 0 else 1⟩ : Arr2 ℝ) 21 = .ok t := by
    intro n hn
    obtain ⟨t, ht, -⟩ := C12_two_level (⟨n, 2, fun _ j => if (j : ℕ) = 0 then 0 else 1⟩ : Arr2 ℝ) 21 0 1 one_pos (by norm_num) (by
        intro v hv
        obtain ⟨i, j, rfl⟩ := (mem_pixels_val _ _).mp hv
        simp only
        split <;> simp)
      ((mem_pixels_val _ _).mpr ⟨⟨0, hn⟩, ⟨0, by norm_num⟩, by simp⟩) ((mem_pixels_val _ _).mpr ⟨⟨0, hn⟩, ⟨1, by norm_num⟩, by simp⟩)
    exact ⟨t, ht⟩
  obtain ⟨t0, ht0⟩ := thr 1 one_pos
  obtain ⟨t1, ht1⟩ := thr 2 two_pos
  have pos : ∀ n : ℕ, ∀ i j, 0 ≤ (⟨n, 2, fun _ j => if (j : ℕ) = 0 then 0 else 1⟩ : Arr2 ℝ).val i j := by
    intro n i j; simp only; split <;> norm_num
  set a0 : Arr2 ℝ := ⟨1, 2, fun _ j => if (j : ℕ) = 0 then 0 else 1⟩ with ha0
  set a1 : Arr2 ℝ := ⟨2, 2, fun _ j => if (j : ℕ) = 0 then 0 else 1⟩ with ha1
  obtain ⟨o0, m0, e0, s0, s0'⟩ := pokePhase_ok U plainRemover S a0 a0 a0 _ (npSub_same a0 a0 ⟨rfl, rfl⟩) ⟨rfl, rfl⟩ (pos 1) t0 ht0
  obtain ⟨o1, m1, e1, s1, s1'⟩ := pokePhase_ok U plainRemover S a1 a1 a0 ⟨2, 2, fun i j => a0.bcastPx i j - a1.bcastPx i j⟩ rfl ⟨rfl, rfl⟩ (pos 2) t1 ht1
  refine ⟨a0, a0, a0, a1, a1, a0, ?_, ?_⟩
  · rintro ⟨-, h, -⟩
    exact absurd h (by norm_num [ha0, ha1])
  · obtain ⟨p, hp, p1, p2, -⟩ := C01_pad_crop_registered o1 1 2 0 (by norm_num) (by norm_num)
    obtain ⟨q, hq, -, -⟩ := C01_pad_crop_registered m1 1 2 false (by norm_num) (by norm_num)
    rw [fitSpmShear_eq U plainRemover S T ⟨1, 1, 0⟩ a0 a0 a0 a1 a1 a0 ⟨⟨rfl, rfl⟩, rfl, rfl⟩ ⟨rfl, rfl⟩ ⟨rfl, rfl⟩ _ _ e0 e1 p q hp hq]
    have w1 : o0.nr = 1 := s0.1
    have w2 : o0.nc = 2 := s0.2
    obtain ⟨r, hr'⟩ := psffit_returns T ⟨1, 1, 0⟩ (Or.inl rfl) (maskTimes m0 o0) (maskTimes q p)
      ⟨by change o0.nr = p.nr; omega, by change o0.nc = p.nc; omega⟩ (by change 0 < o0.nr; omega) (by change 0 < o0.nc; omega)
    simp only
    rw [hr']
    exact ⟨_, _, rfl⟩

theorem slit_thresh (a b : ℕ) (ha : a < 3) (hb : b < 5) : ∃ t, ampthresh ⟨3, 7, slit a b⟩ 21 = .ok t ∧ t.nr = 3 ∧ t.nc = 7 ∧
    ∀ i j : ℤ, t.px i j = ((⟨3, 7, slit a b⟩ : Arr2 ℝ).px i j).map fun v => decide (v = 1) := by
  refine C12_two_level ⟨3, 7, slit a b⟩ 21 0 1 one_pos (by norm_num) ?_ ?_ ?_
  · intro v hv
    obtain ⟨i, j, rfl⟩ := (mem_pixels_val _ _).mp hv
    simp only [slit]
    split <;> simp
  · refine (mem_pixels_val _ _).mpr ⟨⟨if a = 0 then 1 else 0, by split <;> norm_num⟩, ⟨0, by norm_num⟩, ?_⟩
    simp only [slit]
    rw [if_neg]
    rintro ⟨h, -⟩
    split at h <;> omega
  · refine (mem_pixels_val _ _).mpr ⟨⟨a, ha⟩, ⟨b, show b < 7 by omega⟩, ?_⟩
    simp only [slit]
    rw [if_pos ⟨trivial, by omega, by omega⟩]

theorem slitPoke_ptt (S : Solver) (a b : ℕ) (ha : a < 3) (hb : b < 5) : ∃ m,
    unwrap plainUnwrapper plainRemover ⟨3, 7, fun i j => slitPoke a b i j - 0⟩ ⟨3, 7, slit a b⟩ 21 0 64 true none = .ok (⟨3, 7, slitPoke a b⟩, m) ∧
      removePistonTipTilt S ⟨3, 7, slitPoke a b⟩ m = .ok ⟨3, 7, slitPoke a b⟩ := by
  obtain ⟨t, ht, t1, t2, htp⟩ := slit_thresh a b ha hb
  have hc : unwrapChecks ⟨3, 7, fun i j => slitPoke a b i j - 0⟩ ⟨3, 7, slit a b⟩ 21 64 none = .ok () :=
    (unwrapChecks_ok _ _ _ _ _).mpr ⟨⟨rfl, rfl⟩, fun i j => by simp only [slit]; split <;> norm_num, by norm_num, by norm_num, by intro b hb; cases hb⟩
  have hm : chooseMask plainRemover ⟨3, 7, fun i j => slitPoke a b i j - 0⟩ ⟨3, 7, slit a b⟩ 21 64 true none = .ok t := by
    unfold chooseMask; simp only [if_true]; rw [ht]; rfl
  have hval : ∀ (i : Fin 3) (j : Fin 7), t.px (i : ℕ) (j : ℕ) = some (decide (slit a b i j = 1)) := by
    intro i j
    rw [htp, show (⟨3, 7, slit a b⟩ : Arr2 ℝ).px ((i : ℕ) : ℤ) ((j : ℕ) : ℤ) = some (slit a b i j) from Arr2.px_val ⟨3, 7, slit a b⟩ i j]
    rfl
  have off : ∀ (i : Fin 3) (j : Fin 7), slit a b i j ≠ 1 → slitPoke a b i j = 0 := by
    intro i j h
    unfold slit at h
    unfold slitPoke
    split at h
    · exact absurd rfl h
    · next hn => rw [if_neg hn]
  refine ⟨t, ?_, ?_⟩
  · unfold unwrap
    rw [hc]
    simp only
    rw [hm]
    simp only [plainUnwrapper, fillOutside]
    congr 3
    funext i j
    rw [hval i j]
    by_cases h : slit a b i j = 1
    · simp [h]
    · simp [h, off i j h]
  · refine C25_identity S _ t t1.symm t2.symm ?_ ⟨?_, ?_, ?_⟩
    · intro i j h
      have hb' := (Arr2.px_isSome t i j).mp (by rw [h]; rfl)
      rw [t1, t2] at hb'
      rw [htp, Arr2.px_of_inB ⟨3, 7, slit a b⟩ hb'] at h
      rw [Arr2.px_of_inB ⟨3, 7, slitPoke a b⟩ hb']
      simp only [Option.map_some, Option.some.injEq, decide_eq_false_iff_not] at h
      exact congrArg some (off _ _ h)
    · show ∑ i : Fin 3, ∑ j : Fin 7, slitPoke a b i j = 0
      simp only [Fin.sum_univ_succ, Fin.sum_univ_zero, slitPoke]
      interval_cases a <;> interval_cases b <;> norm_num
    · show ∑ i : Fin 3, ∑ j : Fin 7, ((i : ℕ) : ℝ) * slitPoke a b i j = 0
      simp only [Fin.sum_univ_succ, Fin.sum_univ_zero, slitPoke]
      interval_cases a <;> interval_cases b <;> norm_num
    · show ∑ i : Fin 3, ∑ j : Fin 7, ((j : ℕ) : ℝ) * slitPoke a b i j = 0
      simp only [Fin.sum_univ_succ, Fin.sum_univ_zero, slitPoke]
      interval_cases a <;> interval_cases b <;> norm_num

theorem slitPoke_asym : SignAsymmetric (slitPoke 0 0) := by
  intro y x h
  have two : ∀ i j, slitPoke 0 0 i j = 2 → (i : ℕ) = 0 ∧ (j : ℕ) = 1 := by
    intro i j h
    unfold slitPoke at h
    split at h
    · next hn =>
      split at h
      · omega
      · norm_num at h
    · norm_num at h
  have ntwo : ∀ i j, slitPoke 0 0 i j ≠ -2 := by
    intro i j h
    unfold slitPoke at h
    split at h
    · split at h <;> norm_num at h
    · norm_num at h
  have a01 : slitPoke 0 0 0 1 = 2 := by unfold slitPoke; norm_num
  rcases h with h | h
  · have h1 : (0 + y) % 3 = 0 ∧ (1 + x) % 7 = 1 := two _ _ ((h 0 1).trans a01)
    omega
  · exact absurd ((h 0 1).trans (by rw [a01])) (ntwo _ _)

/-- `C63_recovers_shear`: a slit with a poked middle moves one row down and two columns to the right; the answer is `(2, 1)`. -/
example (S : Solver) (T : Shift) : fitSpmShear plainUnwrapper plainRemover S T ⟨1, 1, 0⟩
    ⟨3, 7, slit 0 0⟩ ⟨3, 7, fun _ _ => 0⟩ ⟨3, 7, slitPoke 0 0⟩ ⟨3, 7, slit 1 2⟩ ⟨3, 7, fun _ _ => 0⟩ ⟨3, 7, slitPoke 1 2⟩ = .ok (2, 1) := by
  obtain ⟨m0, hu0, hf⟩ := slitPoke_ptt S 0 0 (by norm_num) (by norm_num)
  obtain ⟨m1, hu1, ht⟩ := slitPoke_ptt S 1 2 (by norm_num) (by norm_num)
  obtain ⟨s0, s1, h0, h1, h⟩ := C63_recovers_shear plainUnwrapper plainRemover S T ⟨1, 1, 0⟩ rfl _ _ _ _ _ _ _ _ _ _ _ _ hu0 hu1 hf ht 1 one_pos 1 2
    (by intro i j; unfold slitPoke rollIdx; fin_cases i <;> fin_cases j <;> norm_num) ⟨0, 1, by unfold slitPoke; norm_num⟩ slitPoke_asym
  have e0 : s0 = 1 := by obtain ⟨h1, h2, h3⟩ := h0; norm_num at h2 h3; omega
  have e1 : s1 = 2 := by obtain ⟨h1, h2, h3⟩ := h1; norm_num at h2 h3; omega
  rw [h, e0, e1]
  norm_num

/-- `C63_accepts_partial` applies to the same data, with upsampling. -/
example (S : Solver) (T : Shift) : ∃ x y, fitSpmShear plainUnwrapper plainRemover S T ⟨100, 1.5, 0⟩
    ⟨3, 7, slit 0 0⟩ ⟨3, 7, fun _ _ => 0⟩ ⟨3, 7, slitPoke 0 0⟩ ⟨3, 7, slit 1 2⟩ ⟨3, 7, fun _ _ => 0⟩ ⟨3, 7, slitPoke 1 2⟩ = .ok (x, y) := by
  obtain ⟨t0, h0, -⟩ := slit_thresh 0 0 (by norm_num) (by norm_num)
  obtain ⟨t1, h1, -⟩ := slit_thresh 1 2 (by norm_num) (by norm_num)
  exact C63_accepts_partial _ _ S T _ (Or.inr ⟨by norm_num, by norm_num⟩) _ _ _ _ _ _ ⟨⟨rfl, rfl⟩, rfl, rfl⟩ ⟨⟨rfl, rfl⟩, rfl, rfl⟩ ⟨rfl, rfl⟩
    (by norm_num) (by norm_num) (fun i j => by simp only [slit]; split <;> norm_num) (fun i j => by simp only [slit]; split <;> norm_num) t0 t1 h0 h1

/-- `C63_different_shapes_rejected` and `C63_rejects_partial` have instances: square images of 4 and 6 pixels. -/
example (S : Solver) (T : Shift) : fitSpmShear plainUnwrapper plainRemover S T ⟨1, 1, 0⟩ (Arr2.full 4 4 1) (Arr2.full 4 4 0) (Arr2.full 4 4 0)
    (Arr2.full 6 6 1) (Arr2.full 6 6 0) (Arr2.full 6 6 0) = .error .valueError :=
  C63_different_shapes_rejected _ _ S T _ _ _ _ _ _ _ ⟨⟨rfl, rfl⟩, rfl, rfl⟩ ⟨⟨rfl, rfl⟩, rfl, rfl⟩ (by rintro ⟨h, -⟩; exact absurd h (by decide))

example (S : Solver) (T : Shift) : ∃ e, fitSpmShear plainUnwrapper plainRemover S T ⟨1, 1, 0⟩ (Arr2.full 4 4 1) (Arr2.full 4 4 0) (Arr2.full 4 4 0)
    (Arr2.full 6 6 1) (Arr2.full 6 6 0) (Arr2.full 4 4 0) = .error e :=
  C63_rejects_partial _ _ S T _ _ _ _ _ _ _ (by decide) (by decide) (by rintro ⟨-, -, h, -⟩; exact absurd h (by decide))

end Coralign.Props
