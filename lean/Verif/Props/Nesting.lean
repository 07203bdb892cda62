import Verif.Props.DarkHole
import Verif.Props.Pupil
import Verif.Props.ShapeEdges
import Verif.Props.EllipseTurned

/-!
# C129: a larger shape covers everything a smaller one does
-/

namespace Coralign.Props

open Coralign Coralign.Spec

/-! ### Specification -/

/-- Specification: both calls return images of the same size, and no pixel of the first is brighter than that of the second. -/
def NoBrighter (r r' : Res (Arr2 ℝ)) : Prop :=
  ∃ o o', r = .ok o ∧ r' = .ok o' ∧ o.nr = o'.nr ∧ o.nc = o'.nc ∧
    ∀ i j v w, o.px i j = some v → o'.px i j = some w → v ≤ w

/-- Specification: both calls return masks of the same size, and every true pixel of the first is true in the second. -/
def MaskWithin (r r' : Res (Arr2 Bool)) : Prop :=
  ∃ o o', r = .ok o ∧ r' = .ok o' ∧ o.nr = o'.nr ∧ o.nc = o'.nc ∧ ∀ i j, o.px i j = some true → o'.px i j = some true

theorem px_centered {α : Type} (o : Arr2 α) (i j : ℤ) : o.px i j = o.centered (i - (o.nr : ℤ) / 2) (j - (o.nc : ℤ) / 2) := by
  unfold Arr2.centered
  congr 1 <;> ring

theorem reaches_px {α : Type} {o : Arr2 α} {i j : ℤ} {v : α} (h : o.px i j = some v) :
    Reaches o.nr o.nc (i - (o.nr : ℤ) / 2) (j - (o.nc : ℤ) / 2) := by
  have := (Arr2.px_isSome o i j).mp (by rw [h]; rfl)
  unfold Reaches
  omega

theorem noBrighter_of {r r' : Res (Arr2 ℝ)} {nx ny : ℤ} {xo yo : ℝ} {v v' : ℝ → ℝ → ℝ} (h : IsImage r nx ny xo yo v)
    (h' : IsImage r' nx ny xo yo v') (hv : ∀ x y, v x y ≤ v' x y) : NoBrighter r r' := by
  obtain ⟨o, e, hr, hc, hp⟩ := h
  obtain ⟨o', e', hr', hc', hp'⟩ := h'
  refine ⟨o, o', e, e', by omega, by omega, fun i j a b ha hb => ?_⟩
  have q := reaches_px ha
  have q' := reaches_px hb
  rw [px_centered] at ha hb
  rw [hr, hc] at ha q
  rw [hr', hc'] at hb q'
  rw [hp _ _ q] at ha
  rw [hp' _ _ q'] at hb
  rw [← Option.some.inj ha, ← Option.some.inj hb]
  exact hv _ _

theorem within_of {a b : Arr2 Bool} {nr nc : ℕ} {P Q : ℝ → ℝ → Prop} (ha : IsMask a nr nc P) (hb : IsMask b nr nc Q)
    (h : ∀ x y, P x y → Q x y) : MaskWithin (.ok a) (.ok b) := by
  obtain ⟨a1, a2, a3⟩ := ha
  obtain ⟨b1, b2, b3⟩ := hb
  refine ⟨a, b, rfl, rfl, by omega, by omega, fun i j hp => ?_⟩
  have q := reaches_px hp
  rw [px_centered] at hp ⊢
  rw [a1, a2] at hp q
  rw [b1, b2]
  obtain ⟨u, hu, hu'⟩ := a3 _ _ q
  obtain ⟨w, hw, hw'⟩ := b3 _ _ q
  rw [hp] at hu
  obtain rfl := Option.some.inj hu
  rw [hw]
  congr 1
  exact hw'.mpr (h _ _ (hu'.mp rfl))

/-! ### Gray-scale shapes -/

theorem tone_bright (v w : ℝ) (h : v ≤ w) : tone false v ≤ tone false w := h

theorem tone_dark (v w : ℝ) (h : v ≤ w) : tone true w ≤ tone true v := by
  show 1 - w ≤ 1 - v
  linarith

theorem inDisc_mono {r R : ℝ} (h0 : 0 < r) (h : r ≤ R) (x y : ℝ) (hx : inDisc r x y) : inDisc R x y := by
  unfold inDisc at *
  nlinarith

theorem inRect_mono {w w' h h' : ℝ} (hw : w ≤ w') (hh : h ≤ h') (deg x y : ℝ) (hx : inRect w h deg x y) : inRect w' h' deg x y := by
  unfold inRect at *
  exact ⟨by linarith [hx.1], by linarith [hx.2]⟩

theorem inEllipse_mono {a a' b b' : ℝ} (ha : 0 < a) (hb : 0 < b) (h1 : a ≤ a') (h2 : b ≤ b') (deg x y : ℝ)
    (hx : inEllipse a b deg x y) : inEllipse a' b' deg x y := by
  unfold inEllipse at *
  have k : ∀ (t a a' : ℝ), 0 < a → a ≤ a' → (t / a') ^ 2 ≤ (t / a) ^ 2 := by
    intro t a a' h0 h
    rw [div_pow, div_pow]
    exact div_le_div_of_nonneg_left (sq_nonneg _) (by positivity) (pow_le_pow_left₀ h0.le h 2)
  linarith [k (turnedX deg x y) a a' ha h1, k (turnedY deg x y) b b' hb h2]

theorem inSegments_mono {rIn rIn' rOut rOut' op op' : ℝ} (h1 : rIn' ≤ rIn) (h2 : rOut ≤ rOut') (h3 : op ≤ op') (nSeg : ℤ) (dir x y : ℝ)
    (hx : inSegments nSeg rIn rOut op dir x y) : inSegments nSeg rIn' rOut' op' dir x y := by
  have k : ∀ x y, inSegment rIn rOut op dir x y → inSegment rIn' rOut' op' dir x y := by
    rintro x y ⟨ρ, φ, a, b, c, d, e⟩
    exact ⟨ρ, φ, by linarith, by linarith, by linarith, d, e⟩
  rcases hx with h | ⟨h, h'⟩
  · exact Or.inl (k _ _ h)
  · exact Or.inr ⟨h, k _ _ h'⟩

/-- **C129.** A larger disc is nowhere darker than a smaller one with the same centre, and a larger obscuration nowhere brighter. -/
theorem C129_circle (nx ny N : ℕ) (hx : 2 ≤ nx) (hy : 1 ≤ ny) (hN : 1 ≤ N) (r R xo yo : ℝ) (hr : 0 < r) (hR : r ≤ R) :
    NoBrighter (circle nx ny r xo yo N false) (circle nx ny R xo yo N false) ∧
    NoBrighter (circle nx ny R xo yo N true) (circle nx ny r xo yo N true) := by
  have hm := areaFraction_mono N _ _ (inDisc_mono hr hR)
  exact ⟨noBrighter_of (C36_circle_exact nx ny N hx hy hN r xo yo hr false) (C36_circle_exact nx ny N hx hy hN R xo yo (by linarith) false)
      fun x y => tone_bright _ _ (hm x y),
    noBrighter_of (C36_circle_exact nx ny N hx hy hN R xo yo (by linarith) true) (C36_circle_exact nx ny N hx hy hN r xo yo hr true)
      fun x y => tone_dark _ _ (hm x y)⟩

/-- **C129.** A wider or higher rectangle is nowhere darker than one inside it, and as an obscuration nowhere brighter. -/
theorem C129_rectangle (nx ny N : ℕ) (hx : 2 ≤ nx) (hy : 1 ≤ ny) (hN : 1 ≤ N) (w h W H xo yo rot : ℝ) (hw : 0 < w) (hh : 0 < h)
    (hW : w ≤ W) (hH : h ≤ H) :
    NoBrighter (rectangle nx ny w h xo yo rot N false) (rectangle nx ny W H xo yo rot N false) ∧
    NoBrighter (rectangle nx ny W H xo yo rot N true) (rectangle nx ny w h xo yo rot N true) := by
  have hm := areaFraction_mono N _ _ (inRect_mono hW hH rot)
  exact ⟨noBrighter_of (C37_rectangle_exact nx ny N hx hy hN w h xo yo rot hw hh false)
      (C37_rectangle_exact nx ny N hx hy hN W H xo yo rot (by linarith) (by linarith) false) fun x y => tone_bright _ _ (hm x y),
    noBrighter_of (C37_rectangle_exact nx ny N hx hy hN W H xo yo rot (by linarith) (by linarith) true)
      (C37_rectangle_exact nx ny N hx hy hN w h xo yo rot hw hh true) fun x y => tone_dark _ _ (hm x y)⟩

/-- **C129 (partial).** The same for ellipses, under the condition of `C38_ellipse_exact_partial` on both.
Missing: the other ellipses, for which it is false (`C129_ellipse_fails`). -/
theorem C129_ellipse_partial (nx ny N : ℕ) (hx : 2 ≤ nx) (hy : 2 ≤ ny) (hN : 1 ≤ N) (a b A B rot xo yo : ℝ) (ha : 0 < a) (hb : 0 < b)
    (hA : a ≤ A) (hB : b ≤ B)
    (hw : ∀ u v, SubOffset N u → SubOffset N v → ellipticRadius a b rot u v ≤ cornerStep nx ny a b rot xo yo)
    (hW : ∀ u v, SubOffset N u → SubOffset N v → ellipticRadius A B rot u v ≤ cornerStep nx ny A B rot xo yo) :
    NoBrighter (ellipse nx ny a b rot xo yo N false) (ellipse nx ny A B rot xo yo N false) ∧
    NoBrighter (ellipse nx ny A B rot xo yo N true) (ellipse nx ny a b rot xo yo N true) := by
  have hm := areaFraction_mono N _ _ (inEllipse_mono ha hb hA hB rot)
  exact ⟨noBrighter_of (C38_ellipse_exact_partial nx ny N hx hy hN a b rot xo yo ha hb false hw)
      (C38_ellipse_exact_partial nx ny N hx hy hN A B rot xo yo (by linarith) (by linarith) false hW) fun x y => tone_bright _ _ (hm x y),
    noBrighter_of (C38_ellipse_exact_partial nx ny N hx hy hN A B rot xo yo (by linarith) (by linarith) true hW)
      (C38_ellipse_exact_partial nx ny N hx hy hN a b rot xo yo ha hb true hw) fun x y => tone_dark _ _ (hm x y)⟩

/-- **C129 fails for `ellipse`.**  In a 32 x 32 array, stretching the circle of radius 5/4 along the diagonal to a semi-axis of 8 turns a pixel next to
its centre from partly bright to dark. -/
theorem C129_ellipse_fails : ¬ ∀ (nx ny N : ℕ) (a b A B rot xo yo : ℝ), 2 ≤ nx → 2 ≤ ny → 1 ≤ N → 0 < a → 0 < b → a ≤ A → b ≤ B →
    NoBrighter (ellipse nx ny a b rot xo yo N false) (ellipse nx ny A B rot xo yo N false) := by
  intro H
  obtain ⟨o, o', e, e', hr, hc, hp⟩ := H 32 32 3 (5 / 4) (5 / 4) (((32 / 2 : ℕ) : ℝ) / 2) (5 / 4) 45 0 0 (by norm_num) (by norm_num) (by norm_num)
    (by norm_num) (by norm_num) (by norm_num) (by norm_num)
  obtain ⟨O, hO, hz, -⟩ := C38_turned_not_exact 32 3 le_rfl le_rfl
  obtain rfl := Except.ok.inj (e'.symm.trans hO)
  obtain ⟨o2, h2, r2, c2, p2⟩ := C38_round_partial 32 32 3 (by norm_num) (by norm_num) (by norm_num) (5 / 4) 45 0 0 (by norm_num) false
    (Or.inl ⟨by norm_num, by norm_num⟩)
  obtain rfl := Except.ok.inj (e.symm.trans h2)
  have hs := p2 (-1) 1 (by unfold Reaches; norm_num)
  have hpos : 0 < areaFraction 3 (inDisc (5 / 4)) (((1 : ℤ) : ℝ) - 0) (((-1 : ℤ) : ℝ) - 0) := by
    classical
    unfold areaFraction
    refine div_pos ?_ (by norm_num)
    rw [Nat.cast_pos, Finset.card_pos]
    refine ⟨(⟨2, by norm_num⟩, ⟨0, by norm_num⟩), ?_⟩
    rw [Finset.mem_filter]
    refine ⟨Finset.mem_univ _, ?_⟩
    show (_ : ℝ) ^ 2 + _ ^ 2 ≤ _
    push_cast
    norm_num
  unfold Arr2.centered at hs hz
  rw [← hr, ← hc] at hz
  have := hp _ _ _ _ hs hz
  simp only [tone] at this
  norm_num at this hpos
  linarith

/-- **C129 (partial).** Annular segments with a larger outer radius, a smaller inner radius and a larger opening are nowhere darker.  Partial: for annuli
that start far enough from their centre, as in `C67_large_partial`; rotations of 360 degrees and more are refused. -/
theorem C129_segments_partial (nSeg : ℤ) (rIn rOut rIn' rOut' : ℝ) (nx ny N : ℕ) (xo yo op op' angRot dTheta : ℝ)
    (h : SegArgs nSeg rIn rOut nx ny N op dTheta) (h' : SegArgs nSeg rIn' rOut' nx ny N op' dTheta) (hrot : angRot < 360) (hd : dTheta ≤ 90)
    (hfar : Real.sqrt 2 / 2 ≤ (rIn' - Real.sqrt 2) * Real.sin (dTheta * Real.pi / 180))
    (h1 : rIn' ≤ rIn) (h2 : rOut ≤ rOut') (h3 : op ≤ op') :
    NoBrighter (annularSegments nSeg rIn rOut nx ny xo yo op angRot N dTheta)
      (annularSegments nSeg rIn' rOut' nx ny xo yo op' angRot N dTheta) := by
  have hpi := Real.pi_pos
  have hs : 0 ≤ Real.sin (dTheta * Real.pi / 180) := Real.sin_nonneg_of_nonneg_of_le_pi
    (by have := h.dTheta_nonneg; positivity) (by nlinarith)
  refine noBrighter_of (C67_large_partial nSeg rIn rOut nx ny N xo yo op angRot dTheta h hrot hd (by nlinarith))
    (C67_large_partial nSeg rIn' rOut' nx ny N xo yo op' angRot dTheta h' hrot hd hfar)
    fun x y => areaFraction_mono N _ _ (inSegments_mono h1 h2 h3 nSeg angRot) x y

/-- **C129.** A pupil with a larger central obscuration, wider struts or further struts is nowhere brighter. -/
theorem C129_pupil (nx ny N : ℕ) (hx : 2 ≤ nx) (hy : 1 ≤ ny) (hN : 1 ≤ N) (xo yo d D dOuter w W : ℝ) (angles more : List ℝ)
    (hd : 0 ≤ d) (hD : d ≤ D) (hDo : D < dOuter) (hw : 0 ≤ w) (hW : w ≤ W) (hs : angles.Sublist more) :
    NoBrighter (simplePupil nx ny xo yo D dOuter more W N) (simplePupil nx ny xo yo d dOuter angles w N) := by
  refine noBrighter_of (C40_pupil_exact nx ny N hx hy hN xo yo D dOuter W more (by linarith) hDo (by linarith))
    (C40_pupil_exact nx ny N hx hy hN xo yo d dOuter w angles hd (by linarith) hw) fun x y => ?_
  unfold pupilValue
  have r0 := areaFraction_range N (inDisc (dOuter / 2)) x y
  have r1 := areaFraction_range N (fun x y => 0 < D ∧ inDisc (D / 2) x y) x y
  have m1 : areaFraction N (fun x y => 0 < d ∧ inDisc (d / 2) x y) x y ≤ areaFraction N (fun x y => 0 < D ∧ inDisc (D / 2) x y) x y :=
    areaFraction_mono N _ _ (fun x y hh => ⟨by linarith [hh.1], inDisc_mono (by linarith [hh.1]) (by linarith) x y hh.2⟩) x y
  have f0 : ∀ (w : ℝ) (a : ℝ), 0 ≤ (if 0 < w then strutClear N dOuter w a x y else 1) ∧ (if 0 < w then strutClear N dOuter w a x y else 1) ≤ 1 := by
    intro w a
    split_ifs
    · exact strutClear_range N dOuter w a x y
    · norm_num
  have f1 : ∀ a : ℝ, (if 0 < W then strutClear N dOuter W a x y else 1) ≤ (if 0 < w then strutClear N dOuter w a x y else 1) := by
    intro a
    by_cases hw0 : 0 < w
    · rw [if_pos hw0, if_pos (by linarith)]
      unfold strutClear
      have := areaFraction_mono N _ _ (inRect_mono (le_refl (0.6 * dOuter)) hW a) (x - Real.cos (a * Real.pi / 180) * (0.6 * dOuter) / 2)
        (y - Real.sin (a * Real.pi / 180) * (0.6 * dOuter) / 2)
      linarith
    · rw [if_neg hw0]
      exact (f0 W a).2
  have rng : ∀ (w : ℝ) (l : List ℝ), 0 ≤ (l.map fun a => if 0 < w then strutClear N dOuter w a x y else 1).prod ∧
      (l.map fun a => if 0 < w then strutClear N dOuter w a x y else 1).prod ≤ 1 := by
    intro w l
    refine prod_range _ fun b hb => ?_
    obtain ⟨a, -, rfl⟩ := List.mem_map.mp hb
    exact f0 w a
  have m2 : (more.map fun a => if 0 < W then strutClear N dOuter W a x y else 1).prod ≤
      (angles.map fun a => if 0 < w then strutClear N dOuter w a x y else 1).prod := by
    induction hs with
    | slnil => exact le_rfl
    | @cons l₁ l₂ a _ ih =>
      rw [List.map_cons, List.prod_cons]
      exact (mul_le_of_le_one_left (rng W l₂).1 (f0 W a).2).trans ih
    | @cons_cons l₁ l₂ a _ ih =>
      rw [List.map_cons, List.prod_cons, List.map_cons, List.prod_cons]
      exact mul_le_mul (f1 a) ih (rng W l₂).1 (f0 w a).1
  exact mul_le_mul (mul_le_mul_of_nonneg_left (by linarith) r0.1) m2 (rng W more).1 (mul_nonneg r0.1 (by linarith))

/-! ### Dark-hole regions -/

/-- Specification: one region is inside another because they share centre and direction and the second is larger, or is the full annulus or the pair
of sectors that the first is part of. -/
def Region.Inside : Region → Region → Prop
  | .rectangle xo yo w h, .rectangle xo' yo' w' h' => xo = xo' ∧ yo = yo' ∧ w ≤ w' ∧ h ≤ h'
  | .annulus xo yo ri ro, .annulus xo' yo' ri' ro' => xo = xo' ∧ yo = yo' ∧ ri' ≤ ri ∧ ro ≤ ro'
  | .sector xo yo ri ro op cl, .sector xo' yo' ri' ro' op' cl' => xo = xo' ∧ yo = yo' ∧ ri' ≤ ri ∧ ro ≤ ro' ∧ op ≤ op' ∧ cl = cl'
  | .bowtie xo yo ri ro op cl, .bowtie xo' yo' ri' ro' op' cl' => xo = xo' ∧ yo = yo' ∧ ri' ≤ ri ∧ ro ≤ ro' ∧ op ≤ op' ∧ cl = cl'
  | .sector xo yo ri ro op cl, .bowtie xo' yo' ri' ro' op' cl' => xo = xo' ∧ yo = yo' ∧ ri' ≤ ri ∧ ro ≤ ro' ∧ op ≤ op' ∧ cl = cl'
  | .sector xo yo ri ro _ _, .annulus xo' yo' ri' ro' => xo = xo' ∧ yo = yo' ∧ ri' ≤ ri ∧ ro ≤ ro'
  | .bowtie xo yo ri ro _ _, .annulus xo' yo' ri' ro' => xo = xo' ∧ yo = yo' ∧ ri' ≤ ri ∧ ro ≤ ro'
  | _, _ => False

theorem sectorTest_mono {ri ri' ro ro' op op' : ℝ} (h1 : ri' ≤ ri) (h2 : ro ≤ ro') (h3 : op ≤ op') (cl x y : ℝ)
    (h : sectorTest ri ro op cl x y) : sectorTest ri' ro' op' cl x y := by
  have hpi := Real.pi_pos
  obtain ⟨⟨a, b⟩, c⟩ := h
  refine ⟨⟨by linarith, by linarith⟩, c.trans ?_⟩
  have : op * Real.pi ≤ op' * Real.pi := by nlinarith
  linarith

theorem sectorTest_annulus {ri ri' ro ro' op : ℝ} (h0 : 0 ≤ ri') (hr : ri ≤ ro) (h1 : ri' ≤ ri) (h2 : ro ≤ ro') (cl x y : ℝ)
    (h : sectorTest ri ro op cl x y) : ri' ^ 2 ≤ x ^ 2 + y ^ 2 ∧ x ^ 2 + y ^ 2 ≤ ro' ^ 2 := by
  obtain ⟨⟨a, b⟩, _⟩ := h
  exact ⟨(dhR_ge x y ri' h0).mp (by linarith), (dhR_le x y ro' (by linarith)).mp (by linarith)⟩

theorem Region.test_mono {r r' : Region} (hv : r.Valid) (hv' : r'.Valid) (h : r.Inside r') (x y : ℝ) (hx : r.test x y) : r'.test x y := by
  cases r with
  | rectangle xo yo w h₀ =>
    cases r' with
    | rectangle xo' yo' w' h₀' =>
      obtain ⟨rfl, rfl, hw, hh⟩ := h
      exact ⟨hx.1.trans (by linarith), hx.2.trans (by linarith)⟩
    | _ => exact h.elim
  | annulus xo yo ri ro =>
    cases r' with
    | annulus xo' yo' ri' ro' =>
      obtain ⟨rfl, rfl, h1, h2⟩ := h
      obtain ⟨v1, v2⟩ := hv
      obtain ⟨w1, w2⟩ := hv'
      exact ⟨(pow_le_pow_left₀ w1 h1 2).trans hx.1, hx.2.trans (pow_le_pow_left₀ (v1.trans v2) h2 2)⟩
    | _ => exact h.elim
  | sector xo yo ri ro op cl =>
    cases r' with
    | sector xo' yo' ri' ro' op' cl' =>
      obtain ⟨rfl, rfl, h1, h2, h3, rfl⟩ := h
      exact sectorTest_mono h1 h2 h3 _ _ _ hx
    | bowtie xo' yo' ri' ro' op' cl' =>
      obtain ⟨rfl, rfl, h1, h2, h3, rfl⟩ := h
      exact Or.inl (sectorTest_mono h1 h2 h3 _ _ _ hx)
    | annulus xo' yo' ri' ro' =>
      obtain ⟨rfl, rfl, h1, h2⟩ := h
      exact sectorTest_annulus hv'.1 hv.2.1 h1 h2 _ _ _ hx
    | rectangle _ _ _ _ => exact h.elim
  | bowtie xo yo ri ro op cl =>
    cases r' with
    | bowtie xo' yo' ri' ro' op' cl' =>
      obtain ⟨rfl, rfl, h1, h2, h3, rfl⟩ := h
      exact hx.imp (sectorTest_mono h1 h2 h3 _ _ _) (sectorTest_mono h1 h2 h3 _ _ _)
    | annulus xo' yo' ri' ro' =>
      obtain ⟨rfl, rfl, h1, h2⟩ := h
      rcases hx with hx | hx
      · exact sectorTest_annulus hv'.1 hv.2.1 h1 h2 _ _ _ hx
      · exact sectorTest_annulus hv'.1 hv.2.1 h1 h2 _ _ _ hx
    | rectangle _ _ _ _ => exact h.elim
    | sector _ _ _ _ _ _ => exact h.elim

/-- The call of the generator for a region. -/
noncomputable def Region.draw (nr nc : ℕ) : Region → Res (Arr2 Bool)
  | .rectangle xo yo w h => genRectangle nr nc xo yo w h
  | .annulus xo yo ri ro => genAnnulus nr nc xo yo ri ro
  | .sector xo yo ri ro op cl => genAnnularSector nr nc xo yo ri ro op cl
  | .bowtie xo yo ri ro op cl => genBowtie nr nc xo yo ri ro op cl

theorem Region.draw_ok (nr nc : ℕ) (hr : 1 ≤ nr) (hc : 1 ≤ nc) (r : Region) (hv : r.Valid) :
    ∃ m, r.draw nr nc = .ok m ∧ IsMask m nr nc r.test := by
  cases r with
  | rectangle xo yo w h => exact genRectangle_mask nr nc hr hc xo yo w h hv.1 hv.2
  | annulus xo yo ri ro => exact genAnnulus_mask nr nc hr hc xo yo ri ro hv.1 hv.2
  | sector xo yo ri ro op cl => exact genSector_mask nr nc hr hc xo yo ri ro op cl hv.1 hv.2.1 hv.2.2
  | bowtie xo yo ri ro op cl => exact genBowtie_mask nr nc hr hc xo yo ri ro op cl hv.1 hv.2.1 hv.2.2

/-- **C129.** `gen_rectangle`, `gen_annulus`, `gen_annular_sector` and `gen_bowtie`: the mask of a region contains that of every region inside it, apex
included. -/
theorem C129_regions (nr nc : ℕ) (hr : 1 ≤ nr) (hc : 1 ≤ nc) (r r' : Region) (hv : r.Valid) (hv' : r'.Valid) (h : r.Inside r') :
    MaskWithin (r.draw nr nc) (r'.draw nr nc) := by
  obtain ⟨m, e, hm⟩ := Region.draw_ok nr nc hr hc r hv
  obtain ⟨m', e', hm'⟩ := Region.draw_ok nr nc hr hc r' hv'
  rw [e, e']
  exact within_of hm hm' (Region.test_mono hv hv' h)

/-- **C129.** `gen_dark_hole_from_yaml`: a specification every shape of which is inside some shape of another one gives a mask inside that of the other;
in particular adding shapes never removes a pixel. -/
theorem C129_dark_hole (nr nc : ℕ) (hr : 1 ≤ nr) (hc : 1 ≤ nc) (l l' : List (ShapeSpec × Region)) (hne : l ≠ [])
    (hl : ∀ p ∈ l, p.1.Describes p.2 ∧ p.2.Valid) (hl' : ∀ p ∈ l', p.1.Describes p.2 ∧ p.2.Valid)
    (h : ∀ p ∈ l, ∃ p' ∈ l', p.2.Inside p'.2 ∨ p.2 = p'.2) :
    ∃ b b', genDarkHole nr nc (l.map Prod.fst) = .ok (.bool b) ∧ genDarkHole nr nc (l'.map Prod.fst) = .ok (.bool b') ∧
      MaskWithin (.ok b) (.ok b') := by
  have hne' : l' ≠ [] := by
    rintro rfl
    obtain ⟨p, hp⟩ := List.exists_mem_of_ne_nil l hne
    obtain ⟨_, h', _⟩ := h p hp
    simp at h'
  have key : ∀ l : List (ShapeSpec × Region), l ≠ [] → (∀ p ∈ l, p.1.Describes p.2 ∧ p.2.Valid) →
      ∃ b, genDarkHole nr nc (l.map Prod.fst) = .ok (.bool b) ∧ IsMask b nr nc (fun x y => ∃ p ∈ l, p.2.test x y) := by
    intro l hne hl
    obtain ⟨m', e, hm⟩ := fold_mask nr nc hr hc l hl (fun _ _ => False) (.float (Arr2.full nr nc 0)) ⟨rfl, fun _ _ => id⟩
    rw [if_neg hne] at hm
    obtain ⟨b, rfl, hb⟩ := hm
    refine ⟨b, ?_, hb.congr fun x y => by simp⟩
    unfold genDarkHole
    rw [if_neg (by omega)]
    exact e
  obtain ⟨b, e, hb⟩ := key l hne hl
  obtain ⟨b', e', hb'⟩ := key l' hne' hl'
  refine ⟨b, b', e, e', within_of hb hb' fun x y => ?_⟩
  rintro ⟨p, hp, hx⟩
  obtain ⟨p', hp', hi⟩ := h p hp
  refine ⟨p', hp', ?_⟩
  rcases hi with hi | hi
  · exact Region.test_mono (hl p hp).2 (hl' p' hp').2 hi x y hx
  · rw [← hi]; exact hx

/-! ### Concrete cases -/

example : NoBrighter (circle (32 : ℕ) (30 : ℕ) 5 (1 / 3) (-2) (11 : ℕ) false) (circle (32 : ℕ) (30 : ℕ) (21 / 4) (1 / 3) (-2) (11 : ℕ) false) :=
  (C129_circle 32 30 11 (by norm_num) (by norm_num) (by norm_num) 5 (21 / 4) (1 / 3) (-2) (by norm_num) (by norm_num)).1

example : NoBrighter (simplePupil (64 : ℕ) (64 : ℕ) 0 0 12 50 [0, 120, 240] 3 (11 : ℕ)) (simplePupil (64 : ℕ) (64 : ℕ) 0 0 10 50 [0, 240] 2 (11 : ℕ)) :=
  C129_pupil 64 64 11 (by norm_num) (by norm_num) (by norm_num) 0 0 10 12 50 2 3 [0, 240] [0, 120, 240] (by norm_num) (by norm_num) (by norm_num)
    (by norm_num) (by norm_num) (((List.Sublist.refl [240]).cons 120).cons_cons 0)

example : (Region.sector 0 0 3 9 60 90).Inside (.bowtie 0 0 2 10 65 90) ∧ (Region.sector 0 0 3 9 60 90).Valid ∧ (Region.bowtie 0 0 2 10 65 90).Valid :=
  ⟨⟨rfl, rfl, by norm_num, by norm_num, by norm_num, rfl⟩, ⟨by norm_num, by norm_num, by norm_num⟩, ⟨by norm_num, by norm_num, by norm_num⟩⟩

end Coralign.Props
