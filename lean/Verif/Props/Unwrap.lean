import Verif.Model.Unwrap

/-!
# Property C15: phase unwrapping masks
-/

namespace Coralign.Props

open Coralign

/-- Specification: what both functions promise about the pair (unwrapped phase, mask). -/
structure UnwrapSpec (phase : Arr2 ℝ) (fill : ℝ) (u : Arr2 ℝ) (m : Arr2 Bool) : Prop where
  shape : u.nr = phase.nr ∧ u.nc = phase.nc ∧ m.nr = phase.nr ∧ m.nc = phase.nc
  outside : ∀ i j : ℤ, m.px i j = some false → u.px i j = some fill
  inside : ∀ (i j : ℤ) v, m.px i j = some true → phase.px i j = some v →
    ∃ k : ℤ, u.px i j = some (v + 2 * Real.pi * k)

/-- Specification: where the mask comes from. -/
def MaskSource (phase amplitude : Arr2 ℝ) (nbin : ℤ) (useMask : Bool) (bMask : Option (Arr2 Bool))
    (m : Arr2 Bool) : Prop :=
  (∀ b, bMask = some b → m = b) ∧
  (bMask = none → useMask = false → m = Arr2.full phase.nr phase.nc true) ∧
  (bMask = none → useMask = true → ∃ t, ampthresh amplitude nbin = .ok t ∧ m.nr = t.nr ∧ m.nc = t.nc ∧
    ∀ i j : ℤ, m.px i j = some true → t.px i j = some true)

theorem px_fillOutside (a : Arr2 ℝ) (m : Arr2 Bool) (fill : ℝ) (i j : ℤ) :
    (fillOutside a m fill).px i j = (a.px i j).map fun v => if m.px i j = some true then v else fill := by
  by_cases h : (0 ≤ i ∧ i < a.nr) ∧ (0 ≤ j ∧ j < a.nc)
  · rw [Arr2.px_of_inB a h, Arr2.px_of_inB _ (show (0 ≤ i ∧ i < (fillOutside a m fill).nr) ∧ (0 ≤ j ∧ j < (fillOutside a m fill).nc) from h)]
    simp only [fillOutside, Option.map_some, Option.some.injEq]
    rw [Int.toNat_of_nonneg h.1.1, Int.toNat_of_nonneg h.2.1]
  · rw [Arr2.px_of_not_inB a h, Arr2.px_of_not_inB _ (show ¬ ((0 ≤ i ∧ i < (fillOutside a m fill).nr) ∧ (0 ≤ j ∧ j < (fillOutside a m fill).nc)) from h)]
    rfl

theorem unwrapChecks_ok (phase amplitude : Arr2 ℝ) (nbin minSize : ℤ) (bMask : Option (Arr2 Bool)) :
    unwrapChecks phase amplitude nbin minSize bMask = .ok () ↔
      (phase.nr = amplitude.nr ∧ phase.nc = amplitude.nc) ∧ (∀ i j, 0 ≤ amplitude.val i j) ∧ 3 ≤ nbin ∧ 0 < minSize ∧
      ∀ b, bMask = some b → b.nr = phase.nr ∧ b.nc = phase.nc := by
  unfold unwrapChecks
  classical
  by_cases h1 : phase.nr ≠ amplitude.nr ∨ phase.nc ≠ amplitude.nc
  · rw [if_pos h1]; simp only [reduceCtorEq, false_iff]; intro h; omega
  rw [if_neg h1]
  by_cases h2 : anyNegative amplitude
  · rw [if_pos h2]; simp only [reduceCtorEq, false_iff]
    obtain ⟨i, j, hij⟩ := h2
    intro h; exact absurd (h.2.1 i j) (not_le.mpr hij)
  rw [if_neg h2]
  have h2' : ∀ i j, 0 ≤ amplitude.val i j := by
    intro i j; by_contra hc; exact h2 ⟨i, j, not_le.mp hc⟩
  by_cases h3 : nbin ≤ 0
  · rw [if_pos h3]; simp only [reduceCtorEq, false_iff]; intro h; omega
  rw [if_neg h3]
  by_cases h4 : nbin < 3
  · rw [if_pos h4]; simp only [reduceCtorEq, false_iff]; intro h; omega
  rw [if_neg h4]
  by_cases h5 : minSize ≤ 0
  · rw [if_pos h5]; simp only [reduceCtorEq, false_iff]; intro h; omega
  rw [if_neg h5]
  cases bMask with
  | none => simp only [true_iff]; exact ⟨by omega, h2', by omega, by omega, by intro b hb; cases hb⟩
  | some b =>
    simp only
    by_cases h6 : b.nr ≠ phase.nr ∨ b.nc ≠ phase.nc
    · rw [if_pos h6]; simp only [reduceCtorEq, false_iff]
      intro h; have := h.2.2.2.2 b rfl; omega
    · rw [if_neg h6]; simp only [true_iff]
      refine ⟨by omega, h2', by omega, by omega, ?_⟩
      intro b' hb'; injection hb' with hb'; subst hb'; omega

theorem ampthresh_shape {K : Type} [Field K] [LinearOrder K] (a : Arr2 K) (n : ℤ) (m : Arr2 Bool)
    (h : ampthresh a n = .ok m) : m.nr = a.nr ∧ m.nc = a.nc := by
  unfold ampthresh at h
  split at h
  · cases h
  · split at h
    · cases h
    · injection h with h; subst h; exact ⟨rfl, rfl⟩

theorem chooseMask_ok (R : SmallRemover) (phase amplitude : Arr2 ℝ) (nbin minSize : ℤ) (useMask : Bool)
    (bMask : Option (Arr2 Bool)) (m : Arr2 Bool)
    (hc : unwrapChecks phase amplitude nbin minSize bMask = .ok ())
    (h : chooseMask R phase amplitude nbin minSize useMask bMask = .ok m) :
    m.nr = phase.nr ∧ m.nc = phase.nc ∧ MaskSource phase amplitude nbin useMask bMask m := by
  obtain ⟨h1, _, _, _, h5⟩ := (unwrapChecks_ok _ _ _ _ _).mp hc
  unfold chooseMask at h
  cases bMask with
  | some b =>
    injection h with h; subst h
    refine ⟨(h5 b rfl).1, (h5 b rfl).2, ?_, ?_, ?_⟩
    · intro b' hb'; injection hb'
    · intro h; cases h
    · intro h; cases h
  | none =>
    cases useMask with
    | false =>
      simp only [Bool.false_eq_true, if_false] at h
      injection h with h; subst h
      refine ⟨rfl, rfl, ?_, ?_, ?_⟩
      · intro b hb; cases hb
      · exact fun _ _ => rfl
      · intro _ h; cases h
    | true =>
      simp only [if_true] at h
      cases ht : ampthresh amplitude nbin with
      | error e => rw [ht] at h; cases h
      | ok t =>
        rw [ht] at h
        injection h with h; subst h
        obtain ⟨s1, s2⟩ := ampthresh_shape _ _ _ ht
        refine ⟨by rw [R.nr_eq]; omega, by rw [R.nc_eq]; omega, ?_, ?_, ?_⟩
        · intro b hb; cases hb
        · intro _ h; cases h
        intro _ _
        exact ⟨t, ht, R.nr_eq _ _, R.nc_eq _ _, fun i j h => R.subset _ _ i j h⟩

theorem fillOutside_spec (U : Unwrapper) (p : Arr2 ℝ) (m : Arr2 Bool) (fill : ℝ) (hr : m.nr = p.nr) (hc : m.nc = p.nc) :
    UnwrapSpec p fill (fillOutside (U.run p m) m fill) m := by
  refine ⟨⟨U.nr_eq p m, U.nc_eq p m, hr, hc⟩, ?_, ?_⟩
  · intro i j h
    have hin := (Arr2.px_isSome m i j).mp (by rw [h]; rfl)
    rw [px_fillOutside, Arr2.px_of_inB (U.run p m) (by rw [U.nr_eq, U.nc_eq]; omega), h]
    simp
  · intro i j v h hv
    obtain ⟨k, hk⟩ := U.congr p m i j v h hv
    exact ⟨k, by rw [px_fillOutside, hk, h]; simp⟩

/-- **C15.** Whenever `unwrap` returns: both outputs have the input's shape, the phase equals `fill_value` outside the
returned mask and the input phase plus whole turns inside it; a supplied mask is returned as is, without a mask
request every pixel is used, and otherwise only pixels above the amplitude threshold are. -/
theorem C15_unwrap (U : Unwrapper) (R : SmallRemover) (phase amplitude : Arr2 ℝ) (nbin : ℤ) (fill : ℝ)
    (minSize : ℤ) (useMask : Bool) (bMask : Option (Arr2 Bool)) (u : Arr2 ℝ) (m : Arr2 Bool)
    (h : unwrap U R phase amplitude nbin fill minSize useMask bMask = .ok (u, m)) :
    UnwrapSpec phase fill u m ∧ MaskSource phase amplitude nbin useMask bMask m := by
  unfold unwrap at h
  cases hc : unwrapChecks phase amplitude nbin minSize bMask with
  | error e => rw [hc] at h; cases h
  | ok x =>
    rw [hc] at h
    simp only at h
    cases hm : chooseMask R phase amplitude nbin minSize useMask bMask with
    | error e => rw [hm] at h; cases h
    | ok m' =>
      rw [hm] at h
      injection h with h
      obtain ⟨rfl, rfl⟩ := Prod.mk.inj h
      obtain ⟨h1, h2, h3⟩ := chooseMask_ok R _ _ _ _ _ _ _ hc hm
      exact ⟨fillOutside_spec U phase m' fill h1 h2, h3⟩

/-- **C15.** With a mask of the right shape (or with masking off) valid arguments always produce a result. -/
theorem C15_unwrap_returns (U : Unwrapper) (R : SmallRemover) (phase amplitude : Arr2 ℝ) (nbin : ℤ) (fill : ℝ)
    (minSize : ℤ) (useMask : Bool) (bMask : Option (Arr2 Bool))
    (hs : phase.nr = amplitude.nr ∧ phase.nc = amplitude.nc) (ha : ∀ i j, 0 ≤ amplitude.val i j) (hn : 3 ≤ nbin)
    (hm : 0 < minSize) (hb : ∀ b, bMask = some b → b.nr = phase.nr ∧ b.nc = phase.nc)
    (hsrc : bMask ≠ none ∨ useMask = false) :
    ∃ u m, unwrap U R phase amplitude nbin fill minSize useMask bMask = .ok (u, m) := by
  unfold unwrap
  rw [(unwrapChecks_ok _ _ _ _ _).mpr ⟨hs, ha, hn, hm, hb⟩]
  simp only
  unfold chooseMask
  cases bMask with
  | some b => exact ⟨_, _, rfl⟩
  | none =>
    rcases hsrc with h | h
    · exact absurd rfl h
    · subst h; exact ⟨_, _, rfl⟩

/-- **C15.** Invalid arguments never produce a result: mismatched shapes, a negative amplitude, fewer than three bins, a
non-positive minimum size or a mask of another shape raise. -/
theorem C15_unwrap_rejects (U : Unwrapper) (R : SmallRemover) (phase amplitude : Arr2 ℝ) (nbin : ℤ) (fill : ℝ)
    (minSize : ℤ) (useMask : Bool) (bMask : Option (Arr2 Bool))
    (h : ¬ ((phase.nr = amplitude.nr ∧ phase.nc = amplitude.nc) ∧ (∀ i j, 0 ≤ amplitude.val i j) ∧ 3 ≤ nbin ∧
      0 < minSize ∧ ∀ b, bMask = some b → b.nr = phase.nr ∧ b.nc = phase.nc)) :
    ∃ e, unwrap U R phase amplitude nbin fill minSize useMask bMask = .error e := by
  unfold unwrap
  cases hc : unwrapChecks phase amplitude nbin minSize bMask with
  | error e => exact ⟨e, rfl⟩
  | ok x => exact absurd ((unwrapChecks_ok _ _ _ _ _).mp hc) h

/-- **C15.** Whenever `unwrap_segments` returns: the same promises hold for the eroded mask, which is the erosion (by
the structuring element, if any) of the mask `unwrap` would have used. -/
theorem C15_segments (U : Unwrapper) (R : SmallRemover) (interp : Arr2 ℝ → Arr2 Bool → Res (ℕ → ℕ → ℝ))
    (phase amplitude : Arr2 ℝ) (nbin : ℤ) (fill : ℝ) (minSize : ℤ) (useMask : Bool) (bMask selem : Option (Arr2 Bool))
    (u : Arr2 ℝ) (me : Arr2 Bool)
    (h : unwrapSegments U R interp phase amplitude nbin fill minSize useMask bMask selem = .ok (u, me)) :
    UnwrapSpec phase fill u me ∧ ∃ m, MaskSource phase amplitude nbin useMask bMask m ∧
      (selem = none → me = m) ∧
      (∀ s, selem = some s → ∀ i j : ℤ, (0 ≤ i ∧ i < phase.nr) ∧ (0 ≤ j ∧ j < phase.nc) →
        (me.px i j = some true ↔ ∀ a b : ℤ, s.px a b = some true →
          m.px (i + a - (s.nr / 2 : ℕ)) (j + b - (s.nc / 2 : ℕ)) = some true)) := by
  unfold unwrapSegments at h
  cases hc : unwrapChecks phase amplitude nbin minSize bMask with
  | error e => rw [hc] at h; cases h
  | ok x =>
    rw [hc] at h
    simp only at h
    cases hm : chooseMask R phase amplitude nbin minSize useMask bMask with
    | error e => rw [hm] at h; cases h
    | ok m =>
      rw [hm] at h
      simp only at h
      obtain ⟨h1, h2, h3⟩ := chooseMask_ok R _ _ _ _ _ _ _ hc hm
      cases hme' : erodeOpt m selem with
      | error e => rw [hme'] at h; cases h
      | ok me' =>
      rw [hme'] at h
      simp only at h
      have hme : me' = (match selem with | some s => erode m s | none => m) := by
        cases selem with
        | none => exact (Except.ok.inj hme').symm
        | some s =>
          simp only [erodeOpt, binaryErosion] at hme'
          split_ifs at hme' with hz
          exact (Except.ok.inj hme').symm
      replace hme := hme.symm
      have hme1 : me'.nr = phase.nr ∧ me'.nc = phase.nc := by
        rw [← hme]; cases selem with
        | none => exact ⟨h1, h2⟩
        | some s => exact ⟨h1, h2⟩
      cases hi : interp phase me' with
      | error e => rw [hi] at h; cases h
      | ok f =>
        rw [hi] at h
        simp only at h
        generalize hfil : (⟨phase.nr, phase.nc, fun i j =>
          if me'.px (i : ℕ) (j : ℕ) = some true then phase.val i j else f i j⟩ : Arr2 ℝ) = filled at h
        have hsh : filled.nr = phase.nr ∧ filled.nc = phase.nc := by rw [← hfil]; exact ⟨rfl, rfl⟩
        have hin : ∀ (i j : ℤ) v, me'.px i j = some true → phase.px i j = some v → filled.px i j = some v := by
          intro i j v hp hv
          have hb := (Arr2.px_isSome phase i j).mp (by rw [hv]; rfl)
          rw [← hfil, Arr2.px_of_inB _ (by simp only; exact hb)]
          simp only
          rw [Int.toNat_of_nonneg hb.1.1, Int.toNat_of_nonneg hb.2.1, hp]
          rw [Arr2.px_of_inB phase hb] at hv
          simpa using hv
        cases hu : unwrap U R filled amplitude 21 0 64 false none with
        | error e => rw [hu] at h; cases h
        | ok um =>
          obtain ⟨u0, m0⟩ := um
          rw [hu] at h
          simp only [Except.ok.injEq, Prod.mk.injEq] at h
          obtain ⟨rfl, rfl⟩ := h
          obtain ⟨sp, _, src, _⟩ := C15_unwrap U R _ _ _ _ _ _ _ _ _ hu
          have hm0 := src rfl rfl
          refine ⟨⟨⟨?_, ?_, hme1.1, hme1.2⟩, ?_, ?_⟩, m, h3, ?_, ?_⟩
          · exact sp.shape.1.trans hsh.1
          · exact sp.shape.2.1.trans hsh.2
          · intro i j hf
            have hb := (Arr2.px_isSome me' i j).mp (by rw [hf]; rfl)
            have := sp.shape
            rw [px_fillOutside, Arr2.px_of_inB u0 (by omega), hf]
            simp
          · intro i j v hp hv
            have hb := (Arr2.px_isSome phase i j).mp (by rw [hv]; rfl)
            obtain ⟨k, hk⟩ := sp.inside i j v (by rw [hm0, Arr2.px_full_in]; omega) (hin i j v hp hv)
            exact ⟨k, by rw [px_fillOutside, hk, hp]; simp⟩
          · rintro rfl; rw [← hme]
          · rintro s rfl i j hij
            rw [← hme]
            exact px_erode m s i j (by omega)

/-- The trivial unwrapper (no wraps) and remover satisfy their contracts, so the theorems above are about
something. -/
example : ∃ (U : Unwrapper) (R : SmallRemover) (u : Arr2 ℝ) (m : Arr2 Bool),
    unwrap U R (Arr2.full 2 2 1) (Arr2.full 2 2 1) 21 0 64 true
      (some (Arr2.ofFn 2 2 fun i j => decide (i = j))) = .ok (u, m) := by
  let U : Unwrapper := ⟨fun p _ => p, fun _ _ => rfl, fun _ _ => rfl,
    fun p m i j v _ hv => ⟨0, by simpa using hv⟩⟩
  let R : SmallRemover := ⟨fun m _ => m, fun _ _ => rfl, fun _ _ => rfl, fun _ _ _ _ h => h⟩
  refine ⟨U, R, ?_⟩
  exact C15_unwrap_returns U R _ _ _ _ _ _ _ ⟨rfl, rfl⟩ (fun _ _ => by simp [Arr2.full]) (by norm_num) (by norm_num)
    (by intro b hb; injection hb with hb; subst hb; exact ⟨rfl, rfl⟩) (Or.inl (by simp))

end Coralign.Props
