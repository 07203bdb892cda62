import Verif.Props.Refusals3

/-!
# C97 continued: dark-hole files, unwrapping, registration, mirror shapes, starting commands
-/

namespace Coralign.Props

open Coralign

/-- **C97 (propagation with a given factor).**  The factor must have one row and one column per sample, or one row, or one column,
or be a single number. -/
theorem C97_fresnelprop_fp (e : Arr2 ℂ) (z : ℝ) (nx : ℤ) (fp : Arr2 ℂ) (hr : 0 < e.nr) (hc : 0 < e.nc) :
    ((∃ o, fresnelpropFp e z nx fp = .ok o) ↔
      1 ≤ nx ∧ (z = 0 ∨ ((fp.nr : ℤ) = nx ∨ fp.nr = 1) ∧ ((fp.nc : ℤ) = nx ∨ fp.nc = 1))) ∧
    (fresnelpropFp e z nx fp = .error .typeError ↔ ¬ 1 ≤ nx) ∧
    (fresnelpropFp e z nx fp = .error .valueError ↔
      1 ≤ nx ∧ ¬ (z = 0 ∨ ((fp.nr : ℤ) = nx ∨ fp.nr = 1) ∧ ((fp.nc : ℤ) = nx ∨ fp.nc = 1))) := by
  unfold fresnelpropFp
  refine two_refusals (by decide) (fun h => if_pos (by omega)) (fun h h' => ?_) (fun h h' => ?_)
  · rw [if_neg (by omega), if_neg (fun hz => h' (Or.inl hz))]
    unfold angularSpectrum
    obtain ⟨ef, hef, hr', hc', -⟩ := C01_pad_crop_registered e nx nx 0 (by omega) (by omega)
    rw [hef, res_ok_bind]
    have : imul (doFft ef) fp = .error .valueError := by
      unfold imul
      rw [dif_neg]
      rintro ⟨a, b⟩
      have a' : fp.nr = ef.nr ∨ fp.nr = 1 := a
      have b' : fp.nc = ef.nc ∨ fp.nc = 1 := b
      exact h' (Or.inr ⟨by omega, by omega⟩)
    rw [this]
    rfl
  · rw [if_neg (by omega)]
    by_cases hz : z = 0
    · rw [if_pos hz]; exact ⟨_, rfl⟩
    rw [if_neg hz]
    unfold angularSpectrum
    obtain ⟨ef, hef, hr', hc', -⟩ := C01_pad_crop_registered e nx nx 0 (by omega) (by omega)
    rw [hef, res_ok_bind]
    have : ∃ o, imul (doFft ef) fp = .ok o := by
      unfold imul
      have hh := h'.resolve_left hz
      rw [dif_pos (by
        refine ⟨?_, ?_⟩
        · show fp.nr = ef.nr ∨ _
          omega
        · show fp.nc = ef.nc ∨ _
          omega)]
      exact ⟨_, rfl⟩
    obtain ⟨o, ho⟩ := this
    rw [ho, res_ok_bind]
    obtain ⟨q, hq, -⟩ := C01_pad_crop_registered (doIfft o) e.nr e.nc 0 (by omega) (by omega)
    exact ⟨q, hq⟩

/-- **C97 (upsampled transform).** -/
theorem C97_upsampled_dft (a : Arr2 ℂ) (sizes : List ℤ) (kappa : ℝ) (offs : List ℝ) :
    ((∃ o, computeUpsampledDft a sizes kappa offs = .ok o) ↔
      (sizes.length = 2 ∧ offs.length = 2) ∧ (kappa ≠ 0 ∧ a.nr ≠ 0 ∧ a.nc ≠ 0)) ∧
    (computeUpsampledDft a sizes kappa offs = .error .valueError ↔ ¬ (sizes.length = 2 ∧ offs.length = 2)) ∧
    (computeUpsampledDft a sizes kappa offs = .error .zeroDivisionError ↔
      (sizes.length = 2 ∧ offs.length = 2) ∧ ¬ (kappa ≠ 0 ∧ a.nr ≠ 0 ∧ a.nc ≠ 0)) := by
  refine two_refusals (by decide) (fun h => ?_) (fun h h' => ?_) (fun h h' => ?_)
  · unfold computeUpsampledDft
    split
    · exact absurd ⟨rfl, rfl⟩ h
    · rfl
  · obtain ⟨s0, s1, rfl⟩ := List.length_eq_two.mp h.1
    obtain ⟨o0, o1, rfl⟩ := List.length_eq_two.mp h.2
    unfold computeUpsampledDft
    dsimp only
    rw [if_pos (by by_contra hc; push Not at hc; exact h' hc)]
  · obtain ⟨s0, s1, rfl⟩ := List.length_eq_two.mp h.1
    obtain ⟨o0, o1, rfl⟩ := List.length_eq_two.mp h.2
    unfold computeUpsampledDft
    dsimp only
    rw [if_neg (by push Not; exact h')]
    exact ⟨_, rfl⟩

/-- **C97 (image registration).**  Two images of the same, non-empty shape are always registered, unless upsampling is asked for
and the padded search region has no sample; everything else raises `ValueError`. -/
theorem C97_psffit (T : Shift) (cfg : PsfConfig) (src tgt : Arr2 ℝ) :
    ((∃ o, psffit T cfg src tgt = .ok o) ↔ (src.nr = tgt.nr ∧ src.nc = tgt.nc) ∧ (src.nr ≠ 0 ∧ src.nc ≠ 0) ∧
      (cfg.upsample = 1 ∨ 0 < cfg.upsample * cfg.pad)) ∧
    (psffit T cfg src tgt = .error .valueError ↔ ¬ ((src.nr = tgt.nr ∧ src.nc = tgt.nc) ∧ (src.nr ≠ 0 ∧ src.nc ≠ 0) ∧
      (cfg.upsample = 1 ∨ 0 < cfg.upsample * cfg.pad))) := by
  unfold psffit
  refine one_refusal (fun h => ?_) (fun h => ?_)
  · by_cases h1 : src.nr ≠ tgt.nr ∨ src.nc ≠ tgt.nc
    · rw [if_pos h1]
    rw [if_neg h1]
    by_cases h2 : src.nr = 0 ∨ src.nc = 0
    · rw [if_pos h2]
    rw [if_neg h2]
    have h3 : cfg.upsample ≠ 1 := fun h3 => h ⟨by omega, by omega, Or.inl h3⟩
    have h4 : ¬ 0 < cfg.upsample * cfg.pad := fun h4 => h ⟨by omega, by omega, Or.inr h4⟩
    dsimp only
    rw [if_pos h3]
    have : ∀ p a b, refineShift p cfg.upsample cfg.pad a b = .error .valueError := by
      intro p a b
      unfold refineShift
      dsimp only
      rw [if_pos]
      have := Int.ceil_le (a := cfg.upsample * cfg.pad) (z := 0)
      rw [this]
      push_cast
      exact not_lt.mp h4
    rw [this]
    rfl
  · obtain ⟨h1, h2, h3⟩ := h
    rw [if_neg (by omega), if_neg (by omega)]
    dsimp only
    by_cases h4 : cfg.upsample ≠ 1
    · rw [if_pos h4]
      have h5 : 0 < cfg.upsample * cfg.pad := h3.resolve_left h4
      have : ∀ a b, ∃ o, refineShift (imageProduct src tgt) cfg.upsample cfg.pad a b = .ok o := by
        intro a b
        unfold refineShift
        dsimp only
        rw [if_neg (by have := Int.ceil_pos.mpr h5; omega)]
        obtain ⟨u, hu⟩ := (C97_upsampled_dft ((imageProduct src tgt).map (starRingEnd ℂ))
          [⌈cfg.upsample * cfg.pad⌉, ⌈cfg.upsample * cfg.pad⌉] cfg.upsample
          [((⌈cfg.upsample * cfg.pad⌉ / 2 : ℤ) : ℝ) - (npRound ((a : ℝ) * cfg.upsample) / cfg.upsample) * cfg.upsample,
           ((⌈cfg.upsample * cfg.pad⌉ / 2 : ℤ) : ℝ) - (npRound ((b : ℝ) * cfg.upsample) / cfg.upsample) * cfg.upsample]).1.mpr
          ⟨⟨rfl, rfl⟩, fun h0 => by rw [h0] at h5; simp at h5, h2.1, h2.2⟩
        rw [hu]
        exact ⟨_, rfl⟩
      obtain ⟨o, ho⟩ := this (unwrapShift src.nr (argmax2 ((npIfft2 (imageProduct src tgt)).map fun z => ‖z‖)).1)
        (unwrapShift src.nc (argmax2 ((npIfft2 (imageProduct src tgt)).map fun z => ‖z‖)).2)
      rw [ho]
      exact ⟨_, rfl⟩
    · rw [if_neg h4]
      exact ⟨_, rfl⟩

/-! ### Dark-hole files -/

/-- An entry of the file that describes a shape. -/
inductive GoodEntry (s : ShapeSpec) : Prop
  | rectangle (x y w h : ℝ) (hx : s.xOffset = some x) (hy : s.yOffset = some y) (hs : s.shape = some "rectangle")
      (hw : s.width = some w) (hh : s.height = some h) (pw : 0 < w) (ph : 0 < h)
  | annulus (x y ri ro : ℝ) (hx : s.xOffset = some x) (hy : s.yOffset = some y) (hs : s.shape = some "annulus")
      (hi : s.radiusInner = some ri) (ho : s.radiusOuter = some ro) (pi : 0 ≤ ri) (po : ri ≤ ro)
  | wedge (name : String) (x y ri ro op cl : ℝ) (hx : s.xOffset = some x) (hy : s.yOffset = some y) (hs : s.shape = some name)
      (hn : name = "annular_sector" ∨ name = "bowtie") (hi : s.radiusInner = some ri) (ho : s.radiusOuter = some ro)
      (ha : s.openingAngle = some op) (hc : s.clocking = some cl) (pi : 0 ≤ ri) (po : ri ≤ ro) (pa : 0 < op)

/-- The keys an entry needs, by its shape. -/
def MissingKey (s : ShapeSpec) : Prop :=
  s.xOffset = none ∨ s.yOffset = none ∨ s.shape = none ∨
  (s.shape = some "rectangle" ∧ (s.width = none ∨ s.height = none)) ∨
  (s.shape = some "annulus" ∧ (s.radiusInner = none ∨ s.radiusOuter = none)) ∨
  ((s.shape = some "annular_sector" ∨ s.shape = some "bowtie") ∧
    (s.radiusInner = none ∨ s.radiusOuter = none ∨ s.openingAngle = none ∨ s.clocking = none))

/-- The shape of an entry is not one of the four. -/
def UnknownShape (s : ShapeSpec) : Prop :=
  s.shape ≠ some "rectangle" ∧ s.shape ≠ some "annulus" ∧ s.shape ≠ some "annular_sector" ∧ s.shape ≠ some "bowtie"

/-- An entry whose inner radius exceeds its outer radius. -/
def InsideOut (s : ShapeSpec) : Prop :=
  (s.shape = some "annulus" ∨ s.shape = some "annular_sector" ∨ s.shape = some "bowtie") ∧
  ∃ ri ro, s.radiusInner = some ri ∧ s.radiusOuter = some ro ∧ 0 ≤ ri ∧ 0 ≤ ro ∧ ro < ri

/-- **C97 (entry of a dark-hole file).**  A missing key raises `KeyError`; an unknown shape, or an inner radius above the outer
one, raises `ValueError`; any other fault raises `TypeError`; an entry without fault is accepted. -/
theorem C97_dark_hole_entry (nRows nCols : ℤ) (s : ShapeSpec) (hr : 1 ≤ nRows) (hc : 1 ≤ nCols) :
    ((∃ o, shapeMask nRows nCols s = .ok o) ↔ GoodEntry s) ∧
    (shapeMask nRows nCols s = .error .keyError ↔ MissingKey s) ∧
    (shapeMask nRows nCols s = .error .valueError ↔ ¬ MissingKey s ∧ (UnknownShape s ∨ InsideOut s)) ∧
    (shapeMask nRows nCols s = .error .typeError ↔ ¬ GoodEntry s ∧ ¬ MissingKey s ∧ ¬ UnknownShape s ∧ ¬ InsideOut s) := by
  obtain ⟨xo, yo, sh, w, h, ri, ro, op, cl⟩ := s
  have good : ∀ {s}, GoodEntry s → ¬ MissingKey s ∧ ¬ UnknownShape s ∧ ¬ InsideOut s := by
    rintro s (⟨x, y, w, h, hx, hy, hs, hw, hh, pw, ph⟩ | ⟨x, y, ri, ro, hx, hy, hs, hi, ho, pi, po⟩ |
      ⟨name, x, y, ri, ro, op, cl, hx, hy, hs, hn, hi, ho, ha, hc, pi, po, pa⟩)
    · simp [MissingKey, UnknownShape, InsideOut, hx, hy, hs, hw, hh]
    · simp [MissingKey, UnknownShape, InsideOut, hx, hy, hs, hi, ho]; intros; linarith
    · rcases hn with rfl | rfl <;>
      · simp [MissingKey, UnknownShape, InsideOut, hx, hy, hs, hi, ho, ha, hc]; intros; linarith
  have key : ∀ {r : Res (Arr2 Bool)}, r = .error .keyError → MissingKey ⟨xo, yo, sh, w, h, ri, ro, op, cl⟩ →
      ((∃ o, r = .ok o) ↔ GoodEntry ⟨xo, yo, sh, w, h, ri, ro, op, cl⟩) ∧
      (r = .error .keyError ↔ MissingKey ⟨xo, yo, sh, w, h, ri, ro, op, cl⟩) ∧
      (r = .error .valueError ↔ ¬ MissingKey ⟨xo, yo, sh, w, h, ri, ro, op, cl⟩ ∧
        (UnknownShape ⟨xo, yo, sh, w, h, ri, ro, op, cl⟩ ∨ InsideOut ⟨xo, yo, sh, w, h, ri, ro, op, cl⟩)) ∧
      (r = .error .typeError ↔ ¬ GoodEntry ⟨xo, yo, sh, w, h, ri, ro, op, cl⟩ ∧ ¬ MissingKey ⟨xo, yo, sh, w, h, ri, ro, op, cl⟩ ∧
        ¬ UnknownShape ⟨xo, yo, sh, w, h, ri, ro, op, cl⟩ ∧ ¬ InsideOut ⟨xo, yo, sh, w, h, ri, ro, op, cl⟩) := by
    rintro r rfl hm
    refine ⟨iff_of_false (by simp) fun hg => (good hg).1 hm, iff_of_true rfl hm, iff_of_false (by simp) fun hg => hg.1 hm,
      iff_of_false (by simp) fun hg => hg.2.1 hm⟩
  have val : ∀ {r : Res (Arr2 Bool)}, r = .error .valueError → ¬ MissingKey ⟨xo, yo, sh, w, h, ri, ro, op, cl⟩ →
      (UnknownShape ⟨xo, yo, sh, w, h, ri, ro, op, cl⟩ ∨ InsideOut ⟨xo, yo, sh, w, h, ri, ro, op, cl⟩) →
      ((∃ o, r = .ok o) ↔ GoodEntry ⟨xo, yo, sh, w, h, ri, ro, op, cl⟩) ∧
      (r = .error .keyError ↔ MissingKey ⟨xo, yo, sh, w, h, ri, ro, op, cl⟩) ∧
      (r = .error .valueError ↔ ¬ MissingKey ⟨xo, yo, sh, w, h, ri, ro, op, cl⟩ ∧
        (UnknownShape ⟨xo, yo, sh, w, h, ri, ro, op, cl⟩ ∨ InsideOut ⟨xo, yo, sh, w, h, ri, ro, op, cl⟩)) ∧
      (r = .error .typeError ↔ ¬ GoodEntry ⟨xo, yo, sh, w, h, ri, ro, op, cl⟩ ∧ ¬ MissingKey ⟨xo, yo, sh, w, h, ri, ro, op, cl⟩ ∧
        ¬ UnknownShape ⟨xo, yo, sh, w, h, ri, ro, op, cl⟩ ∧ ¬ InsideOut ⟨xo, yo, sh, w, h, ri, ro, op, cl⟩) := by
    rintro r rfl hm hv
    refine ⟨iff_of_false (by simp) fun hg => hv.elim (good hg).2.1 (good hg).2.2, iff_of_false (by simp) hm, iff_of_true rfl ⟨hm, hv⟩,
      iff_of_false (by simp) fun hg => hv.elim hg.2.2.1 hg.2.2.2⟩
  have typ : ∀ {r : Res (Arr2 Bool)}, r = .error .typeError → ¬ GoodEntry ⟨xo, yo, sh, w, h, ri, ro, op, cl⟩ →
      ¬ MissingKey ⟨xo, yo, sh, w, h, ri, ro, op, cl⟩ →
      ¬ UnknownShape ⟨xo, yo, sh, w, h, ri, ro, op, cl⟩ → ¬ InsideOut ⟨xo, yo, sh, w, h, ri, ro, op, cl⟩ →
      ((∃ o, r = .ok o) ↔ GoodEntry ⟨xo, yo, sh, w, h, ri, ro, op, cl⟩) ∧
      (r = .error .keyError ↔ MissingKey ⟨xo, yo, sh, w, h, ri, ro, op, cl⟩) ∧
      (r = .error .valueError ↔ ¬ MissingKey ⟨xo, yo, sh, w, h, ri, ro, op, cl⟩ ∧
        (UnknownShape ⟨xo, yo, sh, w, h, ri, ro, op, cl⟩ ∨ InsideOut ⟨xo, yo, sh, w, h, ri, ro, op, cl⟩)) ∧
      (r = .error .typeError ↔ ¬ GoodEntry ⟨xo, yo, sh, w, h, ri, ro, op, cl⟩ ∧ ¬ MissingKey ⟨xo, yo, sh, w, h, ri, ro, op, cl⟩ ∧
        ¬ UnknownShape ⟨xo, yo, sh, w, h, ri, ro, op, cl⟩ ∧ ¬ InsideOut ⟨xo, yo, sh, w, h, ri, ro, op, cl⟩) := by
    rintro r rfl hg hm hu hi
    refine ⟨iff_of_false (by simp) hg, iff_of_false (by simp) hm, iff_of_false (by simp) fun hh => hh.2.elim hu hi,
      iff_of_true rfl ⟨hg, hm, hu, hi⟩⟩
  have okk : ∀ {r : Res (Arr2 Bool)}, (∃ o, r = .ok o) → GoodEntry ⟨xo, yo, sh, w, h, ri, ro, op, cl⟩ →
      ((∃ o, r = .ok o) ↔ GoodEntry ⟨xo, yo, sh, w, h, ri, ro, op, cl⟩) ∧
      (r = .error .keyError ↔ MissingKey ⟨xo, yo, sh, w, h, ri, ro, op, cl⟩) ∧
      (r = .error .valueError ↔ ¬ MissingKey ⟨xo, yo, sh, w, h, ri, ro, op, cl⟩ ∧
        (UnknownShape ⟨xo, yo, sh, w, h, ri, ro, op, cl⟩ ∨ InsideOut ⟨xo, yo, sh, w, h, ri, ro, op, cl⟩)) ∧
      (r = .error .typeError ↔ ¬ GoodEntry ⟨xo, yo, sh, w, h, ri, ro, op, cl⟩ ∧ ¬ MissingKey ⟨xo, yo, sh, w, h, ri, ro, op, cl⟩ ∧
        ¬ UnknownShape ⟨xo, yo, sh, w, h, ri, ro, op, cl⟩ ∧ ¬ InsideOut ⟨xo, yo, sh, w, h, ri, ro, op, cl⟩) := by
    rintro r ⟨o, rfl⟩ hg
    have := good hg
    refine ⟨iff_of_true ⟨o, rfl⟩ hg, iff_of_false (by simp) this.1, iff_of_false (by simp) fun hh => hh.2.elim this.2.1 this.2.2,
      iff_of_false (by simp) fun hh => hh.1 hg⟩
  rcases xo with _ | xo
  · exact key rfl (by simp [MissingKey])
  rcases yo with _ | yo
  · exact key rfl (by simp [MissingKey])
  rcases sh with _ | name
  · exact key rfl (by simp [MissingKey])
  by_cases n1 : name = "rectangle"
  · subst n1
    rcases w with _ | w
    · exact key rfl (by simp [MissingKey])
    rcases h with _ | h
    · exact key rfl (by simp [MissingKey])
    have e : shapeMask nRows nCols ⟨some xo, some yo, some "rectangle", some w, some h, ri, ro, op, cl⟩ = genRectangle nRows nCols xo yo w h := rfl
    obtain ⟨c1, c2⟩ := C97_dh_rectangle nRows nCols xo yo w h
    rw [← e] at c1 c2
    by_cases hp : 0 < w ∧ 0 < h
    · exact okk (c1.mpr ⟨hr, hc, hp⟩) (.rectangle xo yo w h rfl rfl rfl rfl rfl hp.1 hp.2)
    · refine typ (c2.mpr fun hh => hp hh.2.2) ?_ (by simp [MissingKey]) (by simp [UnknownShape]) (by simp [InsideOut])
      rintro (⟨x, y, w', h', hx, hy, hs, hw, hh, pw, ph⟩ | ⟨x, y, ri, ro, hx, hy, hs, hi, ho, pi, po⟩ |
        ⟨name, x, y, ri, ro, op, cl, hx, hy, hs, hn, hi, ho, ha, hc, pi, po, pa⟩)
      · simp only [Option.some.injEq] at hw hh; subst hw hh; exact hp ⟨pw, ph⟩
      · simp at hs
      · simp at hs; subst hs; simp at hn
  by_cases n2 : name = "annulus"
  · subst n2
    rcases ri with _ | ri
    · exact key rfl (by simp [MissingKey])
    rcases ro with _ | ro
    · exact key rfl (by simp [MissingKey])
    have e : shapeMask nRows nCols ⟨some xo, some yo, some "annulus", w, h, some ri, some ro, op, cl⟩ = genAnnulus nRows nCols xo yo ri ro := rfl
    obtain ⟨c1, c2, c3⟩ := C97_dh_annulus nRows nCols xo yo ri ro
    rw [← e] at c1 c2 c3
    by_cases hp : 0 ≤ ri ∧ 0 ≤ ro
    · by_cases hq : ri ≤ ro
      · exact okk (c1.mpr ⟨⟨hr, hc, hp⟩, hq⟩) (.annulus xo yo ri ro rfl rfl rfl rfl rfl hp.1 hq)
      · refine val (c3.mpr ⟨⟨hr, hc, hp⟩, hq⟩) (by simp [MissingKey]) (Or.inr ⟨Or.inl rfl, ri, ro, rfl, rfl, hp.1, hp.2, not_le.mp hq⟩)
    · refine typ (c2.mpr fun hh => hp hh.2.2) ?_ (by simp [MissingKey]) (by simp [UnknownShape]) ?_
      · rintro (⟨x, y, w', h', hx, hy, hs, hw, hh, pw, ph⟩ | ⟨x, y, ri', ro', hx, hy, hs, hi, ho, pi, po⟩ |
          ⟨name, x, y, ri, ro, op, cl, hx, hy, hs, hn, hi, ho, ha, hc, pi, po, pa⟩)
        · simp at hs
        · simp only [Option.some.injEq] at hi ho; subst hi ho; exact hp ⟨pi, pi.trans po⟩
        · simp at hs; subst hs; simp at hn
      · rintro ⟨-, ri', ro', hi, ho, a, b, -⟩
        simp only [Option.some.injEq] at hi ho; subst hi ho; exact hp ⟨a, b⟩
  by_cases n3 : name = "annular_sector" ∨ name = "bowtie"
  · have hk : ri = none ∨ ro = none ∨ op = none ∨ cl = none → MissingKey ⟨some xo, some yo, some name, w, h, ri, ro, op, cl⟩ := by
      intro hk; simp only [MissingKey, Option.some.injEq]; tauto
    rcases ri with _ | ri
    · exact key (by rcases n3 with rfl | rfl <;> rfl) (hk (by simp))
    rcases ro with _ | ro
    · exact key (by rcases n3 with rfl | rfl <;> rfl) (hk (by simp))
    rcases op with _ | op
    · exact key (by rcases n3 with rfl | rfl <;> rfl) (hk (by simp))
    rcases cl with _ | cl
    · exact key (by rcases n3 with rfl | rfl <;> rfl) (hk (by simp))
    have hm : ¬ MissingKey ⟨some xo, some yo, some name, w, h, some ri, some ro, some op, some cl⟩ := by
      simp [MissingKey, n1]
    have hu : ¬ UnknownShape ⟨some xo, some yo, some name, w, h, some ri, some ro, some op, some cl⟩ := by
      simp only [UnknownShape, ne_eq, Option.some.injEq]; tauto
    have hs' : (some name = some "annulus" ∨ some name = some "annular_sector" ∨ some name = some "bowtie") := by
      simp only [Option.some.injEq]; tauto
    have hgood : GoodEntry ⟨some xo, some yo, some name, w, h, some ri, some ro, some op, some cl⟩ → 0 ≤ ri ∧ ri ≤ ro ∧ 0 < op := by
      rintro (⟨x, y, w', h', hx, hy, hs, hw, hh, pw, ph⟩ | ⟨x, y, ri', ro', hx, hy, hs, hi, ho, pi, po⟩ |
          ⟨name', x, y, ri', ro', op', cl', hx, hy, hs, hn, hi, ho, ha, hc, pi, po, pa⟩)
      · simp only [Option.some.injEq] at hs; exact absurd hs n1
      · simp only [Option.some.injEq] at hs; exact absurd hs n2
      · simp only [Option.some.injEq] at hi ho ha; subst hi ho ha; exact ⟨pi, po, pa⟩
    have c : ((∃ o, shapeMask nRows nCols ⟨some xo, some yo, some name, w, h, some ri, some ro, some op, some cl⟩ = .ok o) ↔
          (1 ≤ nRows ∧ 1 ≤ nCols ∧ 0 ≤ ri ∧ 0 ≤ ro) ∧ ri ≤ ro ∧ 0 < op) ∧
        (shapeMask nRows nCols ⟨some xo, some yo, some name, w, h, some ri, some ro, some op, some cl⟩ = .error .typeError ↔
          ¬ (1 ≤ nRows ∧ 1 ≤ nCols ∧ 0 ≤ ri ∧ 0 ≤ ro) ∨ ri ≤ ro ∧ op ≤ 0) ∧
        (shapeMask nRows nCols ⟨some xo, some yo, some name, w, h, some ri, some ro, some op, some cl⟩ = .error .valueError ↔
          (1 ≤ nRows ∧ 1 ≤ nCols ∧ 0 ≤ ri ∧ 0 ≤ ro) ∧ ro < ri) := by
      rcases n3 with rfl | rfl
      · exact C97_dh_sector nRows nCols xo yo ri ro op cl
      · exact C97_dh_bowtie nRows nCols xo yo ri ro op cl
    obtain ⟨c1, c2, c3⟩ := c
    by_cases hp : 0 ≤ ri ∧ 0 ≤ ro
    · by_cases hq : ri ≤ ro
      · by_cases ha : 0 < op
        · exact okk (c1.mpr ⟨⟨hr, hc, hp⟩, hq, ha⟩) (.wedge name xo yo ri ro op cl rfl rfl rfl n3 rfl rfl rfl rfl hp.1 hq ha)
        · refine typ (c2.mpr (Or.inr ⟨hq, not_lt.mp ha⟩)) (fun hg => ha (hgood hg).2.2) hm hu ?_
          rintro ⟨-, ri', ro', hi, ho, a, b, h0⟩
          simp only [Option.some.injEq] at hi ho; subst hi ho; exact absurd hq (not_le.mpr h0)
      · exact val (c3.mpr ⟨⟨hr, hc, hp⟩, not_le.mp hq⟩) hm (Or.inr ⟨hs', ri, ro, rfl, rfl, hp.1, hp.2, not_le.mp hq⟩)
    · refine typ (c2.mpr (Or.inl fun hh => hp hh.2.2)) (fun hg => hp ⟨(hgood hg).1, (hgood hg).1.trans (hgood hg).2.1⟩) hm hu ?_
      rintro ⟨-, ri', ro', hi, ho, a, b, -⟩
      simp only [Option.some.injEq] at hi ho; subst hi ho; exact hp ⟨a, b⟩
  · have n3' : name ≠ "annular_sector" ∧ name ≠ "bowtie" := by tauto
    refine val ?_ ?_ (Or.inl ⟨by simpa using n1, by simpa using n2, by simpa using n3'.1, by simpa using n3'.2⟩)
    · show (if name = "rectangle" then _ else if name = "annulus" then _ else if name = "annular_sector" then _ else if name = "bowtie" then _ else _) = _
      rw [if_neg n1, if_neg n2, if_neg n3'.1, if_neg n3'.2]
    · simp [MissingKey, n1, n2, n3'.1, n3'.2]

/-- **C97 (dark-hole file).**  The file is accepted exactly when the sizes are positive and every entry describes a shape; the
exception is the one of the first entry that does not. -/
theorem C97_dark_hole (nRows nCols : ℤ) (shapes : List ShapeSpec) :
    ((∃ o, genDarkHole nRows nCols shapes = .ok o) ↔ (1 ≤ nRows ∧ 1 ≤ nCols) ∧ ∀ s ∈ shapes, GoodEntry s) ∧
    (¬ (1 ≤ nRows ∧ 1 ≤ nCols) → genDarkHole nRows nCols shapes = .error .typeError) ∧
    (1 ≤ nRows → 1 ≤ nCols → ∀ pre s post, shapes = pre ++ s :: post → (∀ t ∈ pre, GoodEntry t) →
      (MissingKey s → genDarkHole nRows nCols shapes = .error .keyError) ∧
      (¬ MissingKey s → UnknownShape s ∨ InsideOut s → genDarkHole nRows nCols shapes = .error .valueError) ∧
      (¬ GoodEntry s → ¬ MissingKey s → ¬ UnknownShape s → ¬ InsideOut s → genDarkHole nRows nCols shapes = .error .typeError)) := by
  have bad : ¬ (1 ≤ nRows ∧ 1 ≤ nCols) → genDarkHole nRows nCols shapes = .error .typeError := by
    intro hb; unfold genDarkHole; rw [if_pos (by omega)]
  have run : 1 ≤ nRows → 1 ≤ nCols → genDarkHole nRows nCols shapes = shapes.foldlM (fun mask s => do
      let a ← shapeMask nRows nCols s
      (.ok (maskOr a mask) : Res NpMask)) (.float (Arr2.full nRows.toNat nCols.toNat 0)) := by
    intro h1 h2; unfold genDarkHole; rw [if_neg (by omega)]
  have all : 1 ≤ nRows → 1 ≤ nCols → ∀ (l : List ShapeSpec) (m : NpMask), (∀ t ∈ l, GoodEntry t) →
      ∃ o, l.foldlM (fun mask s => do
        let a ← shapeMask nRows nCols s
        (.ok (maskOr a mask) : Res NpMask)) m = .ok o := by
    intro h1 h2 l
    induction l with
    | nil => intro m _; exact ⟨m, rfl⟩
    | cons t l ih =>
      intro m hg
      obtain ⟨a, ha⟩ := (C97_dark_hole_entry nRows nCols t h1 h2).1.mpr (hg t (by simp))
      obtain ⟨o, ho⟩ := ih (maskOr a m) fun u hu => hg u (by simp [hu])
      refine ⟨o, ?_⟩
      rw [List.foldlM_cons, ha]
      exact ho
  have first : 1 ≤ nRows → 1 ≤ nCols → ∀ pre s post e, shapes = pre ++ s :: post → (∀ t ∈ pre, GoodEntry t) →
      shapeMask nRows nCols s = .error e → genDarkHole nRows nCols shapes = .error e := by
    intro h1 h2 pre s post e hs hp he
    obtain ⟨m, hm⟩ := all h1 h2 pre (.float (Arr2.full nRows.toNat nCols.toNat 0)) hp
    rw [run h1 h2, hs, List.foldlM_append, hm, res_ok_bind, List.foldlM_cons, he]
    rfl
  refine ⟨⟨?_, ?_⟩, bad, ?_⟩
  · rintro ⟨o, ho⟩
    have hsz : 1 ≤ nRows ∧ 1 ≤ nCols := by
      by_contra hb; rw [bad hb] at ho; cases ho
    refine ⟨hsz, ?_⟩
    by_contra hc
    push Not at hc
    obtain ⟨t, ht, hb⟩ := hc
    -- the first bad entry
    have : ∃ pre s post, shapes = pre ++ s :: post ∧ (∀ t ∈ pre, GoodEntry t) ∧ ¬ GoodEntry s := by
      clear ho run bad all first
      induction shapes with
      | nil => simp at ht
      | cons u l ih =>
        by_cases hu : GoodEntry u
        · have htl : t ∈ l := by
            rcases List.mem_cons.mp ht with rfl | h
            · exact absurd hu hb
            · exact h
          obtain ⟨pre, s, post, e, h1, h2⟩ := ih htl
          refine ⟨u :: pre, s, post, by rw [e]; rfl, ?_, h2⟩
          intro t ht
          rcases List.mem_cons.mp ht with rfl | h
          · exact hu
          · exact h1 t h
        · exact ⟨[], u, l, rfl, by simp, hu⟩
    obtain ⟨pre, s, post, e, h1, h2⟩ := this
    cases hm : shapeMask nRows nCols s with
    | error x => rw [first hsz.1 hsz.2 pre s post x e h1 hm] at ho; cases ho
    | ok x => exact h2 ((C97_dark_hole_entry nRows nCols s hsz.1 hsz.2).1.mp ⟨x, hm⟩)
  · rintro ⟨⟨h1, h2⟩, hg⟩
    rw [run h1 h2]
    exact all h1 h2 shapes _ hg
  · intro h1 h2 pre s post e hp
    obtain ⟨-, k1, k2, k3⟩ := C97_dark_hole_entry nRows nCols s h1 h2
    exact ⟨fun h => first h1 h2 pre s post _ e hp (k1.mpr h), fun h h' => first h1 h2 pre s post _ e hp (k2.mpr ⟨h, h'⟩),
      fun a b c d => first h1 h2 pre s post _ e hp (k3.mpr ⟨a, b, c, d⟩)⟩

end Coralign.Props
