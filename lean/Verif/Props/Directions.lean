import Verif.Model.RectProper
import Verif.Props.Pupil
import Verif.Props.OccAstro
import Verif.Model.DarkHole
import Verif.Model.DmShapes
import Mathlib.Algebra.Ring.Periodic

/-!
# C126: an angle is a direction

Whole turns added to an angle, half turns where the shape is symmetric, and the order in which directions are listed change nothing.
-/

namespace Coralign.Props

open Coralign Coralign.Spec Finset

theorem turns {α : Type} {f : ℝ → α} {p : ℝ} (h : ∀ x, f (x + p) = f x) (x : ℝ) (k : ℤ) : f (x + p * k) = f x := by
  have := (show Function.Periodic f p from h).int_mul k x
  rwa [mul_comm] at this

theorem wrap_turn (t : ℝ) : wrapAngle (t - 2 * Real.pi) = wrapAngle t := by
  unfold wrapAngle
  congr 1
  rw [← Complex.exp_periodic.sub_eq ((t : ℂ) * Complex.I)]
  congr 1
  push_cast
  ring

/-! ### Shapes -/

theorem rotU_half (t x y : ℝ) : rotU (t + Real.pi) x y = -rotU t x y := by
  unfold rotU
  rw [← sub_sub, Real.cos_sub_pi, mul_neg]

theorem rotV_half (t x y : ℝ) : rotV (t + Real.pi) x y = -rotV t x y := by
  unfold rotV
  rw [← sub_sub, Real.sin_sub_pi, mul_neg]

/-- **C126.** `rectangle`: half turns change nothing, whatever the other arguments are. -/
theorem C126_rectangle (nx ny : ℤ) (width height xo yo rot : ℝ) (nSub : ℤ) (isDark : Bool) (k : ℤ) :
    rectangle nx ny width height xo yo (rot + 180 * k) nSub isDark = rectangle nx ny width height xo yo rot nSub isDark := by
  refine turns (f := fun rot => rectangle nx ny width height xo yo rot nSub isDark) (fun rot => ?_) rot k
  unfold rectangle
  simp only [show (rot + 180) * Real.pi / 180 = rot * Real.pi / 180 + Real.pi by ring, rotU_half, rotV_half]
  have flip1 : ∀ a u : ℝ, (-u ≤ a ∧ -u ≥ -a) ↔ (u ≤ a ∧ u ≥ -a) := fun a u => by constructor <;> rintro ⟨h1, h2⟩ <;> constructor <;> linarith
  have in4 : ∀ a b u v : ℝ, (((-u ≤ a ∧ -u ≥ -a) ∧ -v ≤ b) ∧ -v ≥ -b) = (((u ≤ a ∧ u ≥ -a) ∧ v ≤ b) ∧ v ≥ -b) := fun a b u v => by
    rw [and_assoc, flip1, flip1, ← and_assoc]
  have in4' : ∀ a b h u v : ℝ, (((-u ≤ a - h ∧ -u ≥ -a + h) ∧ -v ≤ b - h) ∧ -v ≥ -b + h) = (((u ≤ a - h ∧ u ≥ -a + h) ∧ v ≤ b - h) ∧ v ≥ -b + h) := by
    intro a b h u v
    have := in4 (a - h) (b - h) u v
    rwa [show -(a - h) = -a + h by ring, show -(b - h) = -b + h by ring] at this
  have out4 : ∀ a b h u v : ℝ, (((-u ≥ a + h ∨ -u ≤ -a - h) ∨ -v ≥ b + h) ∨ -v ≤ -b - h) = (((u ≥ a + h ∨ u ≤ -a - h) ∨ v ≥ b + h) ∨ v ≤ -b - h) := by
    intro a b h u v
    refine propext ⟨?_, ?_⟩
    · rintro (((h1 | h1) | h1) | h1)
      · exact .inl (.inl (.inr (by linarith)))
      · exact .inl (.inl (.inl (by linarith)))
      · exact .inr (by linarith)
      · exact .inl (.inr (by linarith))
    · rintro (((h1 | h1) | h1) | h1)
      · exact .inl (.inl (.inr (by linarith)))
      · exact .inl (.inl (.inl (by linarith)))
      · exact .inr (by linarith)
      · exact .inl (.inr (by linarith))
  simp only [in4, in4', out4]

/-- **C126.** `rect_proper`: whole turns change nothing. -/
theorem C126_rect_proper (nx ny : ℤ) (width height xo yo rot : ℝ) (nSub : ℤ) (isDark : Bool) (k : ℤ) :
    rectProper nx ny width height xo yo (rot + 360 * k) nSub isDark = rectProper nx ny width height xo yo rot nSub isDark := by
  refine turns (f := fun rot => rectProper nx ny width height xo yo rot nSub isDark) (fun rot => ?_) rot k
  unfold rectProper rectCorners
  simp only [show (rot + 360) * Real.pi / 180 = rot * Real.pi / 180 + 2 * Real.pi by ring, Real.cos_add_two_pi, Real.sin_add_two_pi]

theorem ellipseRho_half (rx ry t x y : ℝ) : ellipseRho rx ry (t + Real.pi) x y = ellipseRho rx ry t x y := by
  unfold ellipseRho
  rw [Real.cos_add_pi, Real.sin_add_pi]
  congr 2
  ring

/-- **C126.** `ellipse`: half turns change nothing. -/
theorem C126_ellipse (nx ny : ℤ) (rx ry rot xo yo : ℝ) (nSub : ℤ) (isDark : Bool) (k : ℤ) :
    ellipse nx ny rx ry (rot + 180 * k) xo yo nSub isDark = ellipse nx ny rx ry rot xo yo nSub isDark := by
  refine turns (f := fun rot => ellipse nx ny rx ry rot xo yo nSub isDark) (fun rot => ?_) rot k
  unfold ellipse ellipseWindow
  simp only [show Real.pi / 180 * (rot + 180) = Real.pi / 180 * rot + Real.pi by ring, ellipseRho_half]

/-- The part of `annular_segments` behind its check of `angRot`. -/
theorem segments_turn (nSeg : ℤ) (rIn rOut : ℝ) (nx ny : ℤ) (xo yo angOpen : ℝ) (nSub : ℤ) (dTheta a b : ℝ) (k : ℤ) (hb : b = a + 360 * k)
    (ha' : a < 360) (hb' : b < 360) :
    annularSegments nSeg rIn rOut nx ny xo yo angOpen b nSub dTheta = annularSegments nSeg rIn rOut nx ny xo yo angOpen a nSub dTheta := by
  have w : ∀ t, wrapAngle (t - b * Real.pi / 180) = wrapAngle (t - a * Real.pi / 180) := by
    intro t
    rw [hb]
    refine turns (f := fun a : ℝ => wrapAngle (t - a * Real.pi / 180)) (fun a => ?_) a k
    rw [show t - (a + 360) * Real.pi / 180 = t - a * Real.pi / 180 - 2 * Real.pi by ring, wrap_turn]
  have w' : ∀ t, wrapAngle (t - b * Real.pi / 180 - Real.pi) = wrapAngle (t - a * Real.pi / 180 - Real.pi) := by
    intro t
    rw [show t - b * Real.pi / 180 - Real.pi = t - Real.pi - b * Real.pi / 180 by ring, w, sub_right_comm]
  unfold annularSegments
  simp only [w, w', ha', hb', not_true_eq_false, if_false]

/-- **C126.** `annular_segments`: whole turns change nothing, as long as both angles are below 360 degrees. -/
theorem C126_segments_partial (nSeg : ℤ) (rIn rOut : ℝ) (nx ny : ℤ) (xo yo angOpen angRot : ℝ) (nSub : ℤ) (dTheta : ℝ) (k : ℤ)
    (h : angRot < 360) (h' : angRot + 360 * k < 360) :
    annularSegments nSeg rIn rOut nx ny xo yo angOpen (angRot + 360 * k) nSub dTheta =
      annularSegments nSeg rIn rOut nx ny xo yo angOpen angRot nSub dTheta :=
  segments_turn _ _ _ _ _ _ _ _ _ _ _ _ k rfl h h'

/-- **C126.** Two opposite segments: half turns change nothing, as long as both angles are below 360 degrees. -/
theorem C126_pair_partial (rIn rOut : ℝ) (nx ny : ℤ) (xo yo angOpen angRot : ℝ) (nSub : ℤ) (dTheta : ℝ) (k : ℤ)
    (h : angRot < 360) (h' : angRot + 180 * k < 360) :
    annularSegments 2 rIn rOut nx ny xo yo angOpen (angRot + 180 * k) nSub dTheta =
      annularSegments 2 rIn rOut nx ny xo yo angOpen angRot nSub dTheta := by
  rcases Int.even_or_odd' k with ⟨q, rfl | rfl⟩
  · refine segments_turn _ _ _ _ _ _ _ _ _ _ _ _ q ?_ h h'
    push_cast
    ring
  · have w : ∀ t, wrapAngle (t - (angRot + 180 * ((2 * q + 1 : ℤ) : ℝ)) * Real.pi / 180) = wrapAngle (t - angRot * Real.pi / 180 - Real.pi) := by
      intro t
      have e := turns (f := fun a : ℝ => wrapAngle (t - a * Real.pi / 180 - Real.pi)) (p := 360) (fun a => by
        rw [show t - (a + 360) * Real.pi / 180 - Real.pi = t - a * Real.pi / 180 - Real.pi - 2 * Real.pi by ring, wrap_turn]) angRot q
      rw [← e]
      congr 1
      push_cast
      ring
    have w' : ∀ t, wrapAngle (t - (angRot + 180 * ((2 * q + 1 : ℤ) : ℝ)) * Real.pi / 180 - Real.pi) = wrapAngle (t - angRot * Real.pi / 180) := by
      intro t
      rw [show t - (angRot + 180 * ((2 * q + 1 : ℤ) : ℝ)) * Real.pi / 180 - Real.pi = t - Real.pi - (angRot + 180 * ((2 * q + 1 : ℤ) : ℝ)) * Real.pi / 180 by ring, w,
        show t - Real.pi - angRot * Real.pi / 180 - Real.pi = t - angRot * Real.pi / 180 - 2 * Real.pi by ring, wrap_turn]
    unfold annularSegments
    simp only [w, w', h, h', not_true_eq_false, if_false]
    norm_num only
    split_ifs
    · rfl
    · rfl
    · rfl
    · exfalso; assumption
    · congr 2
      · funext x y
        exact propext (and_congr_right fun _ => or_comm)
      · funext x y
        exact propext or_right_comm
      · funext x y
        exact propext (and_congr_right fun _ => or_comm)

/-- What is missing from `C126_segments_partial`: from 360 degrees on, `annular_segments` fails although the same direction below 360 is accepted. -/
theorem C126_segments_refused : annularSegments 2 10 30 100 80 0 0 65 (90 + 360 * (1 : ℤ)) 11 4 = .error .unboundLocalError ∧
    ∃ a, annularSegments 2 10 30 100 80 0 0 65 90 11 4 = .ok a := by
  constructor
  · unfold annularSegments
    norm_num
  · unfold annularSegments
    norm_num

/-! ### Dark holes -/

/-- **C126.** `gen_annular_sector`: whole turns change nothing. -/
theorem C126_sector (nRows nCols : ℤ) (xo yo rIn rOut opening clocking : ℝ) (k : ℤ) :
    genAnnularSector nRows nCols xo yo rIn rOut opening (clocking + 360 * k) = genAnnularSector nRows nCols xo yo rIn rOut opening clocking := by
  refine turns (f := fun c => genAnnularSector nRows nCols xo yo rIn rOut opening c) (fun c => ?_) clocking k
  unfold genAnnularSector
  simp only [show ∀ t, t - (c + 360) * Real.pi / 180 = t - c * Real.pi / 180 - 2 * Real.pi from fun t => by ring, wrap_turn]

theorem orPx_comm (nRows nCols : ℤ) (xo yo : ℝ) (P Q : ℝ → ℝ → Prop) :
    (dhArray nRows nCols xo yo P).orPx (dhArray nRows nCols xo yo Q) = (dhArray nRows nCols xo yo Q).orPx (dhArray nRows nCols xo yo P) := by
  have e : ∀ (R : ℝ → ℝ → Prop) (i : Fin nRows.toNat) (j : Fin nCols.toNat),
      (dhArray nRows nCols xo yo R).px (i : ℕ) (j : ℕ) = some ((dhArray nRows nCols xo yo R).val i j) := fun R i j => Arr2.px_val (dhArray nRows nCols xo yo R) i j
  show (⟨nRows.toNat, nCols.toNat, _⟩ : Arr2 Bool) = ⟨nRows.toNat, nCols.toNat, _⟩
  congr 1
  funext i j
  refine (congrArg (fun o : Option Bool => ((dhArray nRows nCols xo yo P).val i j || o.getD false)) (e Q i j)).trans (Eq.trans ?_
    (congrArg (fun o : Option Bool => ((dhArray nRows nCols xo yo Q).val i j || o.getD false)) (e P i j)).symm)
  exact Bool.or_comm _ _

/-- **C126.** `gen_bowtie`: half turns change nothing. -/
theorem C126_bowtie (nRows nCols : ℤ) (xo yo rIn rOut opening clocking : ℝ) (k : ℤ) :
    genBowtie nRows nCols xo yo rIn rOut opening (clocking + 180 * k) = genBowtie nRows nCols xo yo rIn rOut opening clocking := by
  refine turns (f := fun c => genBowtie nRows nCols xo yo rIn rOut opening c) (fun c => ?_) clocking k
  unfold genBowtie
  have e := C126_sector nRows nCols xo yo rIn rOut opening c 1
  rw [show c + 360 * ((1 : ℤ) : ℝ) = c + 180 + 180 by push_cast; ring] at e
  rw [e]
  unfold genAnnularSector
  split_ifs
  · rfl
  · rfl
  · rfl
  · simp only [bind, Except.bind]
    rw [orPx_comm]
  · rfl

/-! ### Mirror patterns -/

/-- **C126.** `probe`: whole turns of the clocking and of the phase change nothing. -/
theorem C126_probe (nact : ℤ) (dact xc yc clock height ximin ximax etamin etamax phase : ℝ) (k l : ℤ) :
    probe nact dact xc yc (clock + 360 * k) height ximin ximax etamin etamax (phase + 360 * l) =
      probe nact dact xc yc clock height ximin ximax etamin etamax phase := by
  refine (turns (f := fun c => probe nact dact xc yc c height ximin ximax etamin etamax (phase + 360 * l)) (fun c => ?_) clock k).trans
    (turns (f := fun p => probe nact dact xc yc clock height ximin ximax etamin etamax p) (fun p => ?_) phase l)
  · unfold probe probeVal
    simp only [show (c + 360) * Real.pi / 180 = c * Real.pi / 180 + 2 * Real.pi by ring, Real.cos_add_two_pi, Real.sin_add_two_pi]
  · unfold probe probeVal
    simp only [show (p + 360) * Real.pi / 180 = p * Real.pi / 180 + 2 * Real.pi by ring, ← add_assoc, Real.sin_add_two_pi]

/-- **C126.** `sine`: whole turns of the phase change nothing. -/
theorem C126_sine (nact : ℤ) (dact amplitude phase fx fy : ℝ) (k : ℤ) :
    sine nact dact amplitude (phase + 360 * k) fx fy = sine nact dact amplitude phase fx fy := by
  refine turns (f := fun p => sine nact dact amplitude p fx fy) (fun p => ?_) phase k
  unfold sine
  simp only [show (p + 360) * Real.pi / 180 = p * Real.pi / 180 + 2 * Real.pi by ring, ← add_assoc, Real.sin_add_two_pi]

/-! ### Satellite spots -/

/-- **C126.** `calc_offset_from_spots`: whole turns of the probe direction change nothing. -/
theorem C126_offset (img : Arr2 ℝ) (rotDeg xo yo : ℝ) (t : SpotTuning) (target : ℝ) (k : ℤ) :
    calcOffsetFromSpots img (rotDeg + 360 * k) xo yo t target = calcOffsetFromSpots img rotDeg xo yo t target := by
  refine turns (f := fun r => calcOffsetFromSpots img r xo yo t target) (fun r => ?_) rotDeg k
  unfold calcOffsetFromSpots
  simp only [show Real.pi / 180 * (r + 360) = Real.pi / 180 * r + 2 * Real.pi by ring, add_right_comm _ (2 * Real.pi) Real.pi, Real.cos_add_two_pi,
    Real.sin_add_two_pi]

/-- **C126.** `calc_bowtie_offsets_from_spots`: whole turns of either angle change nothing. -/
theorem C126_bowtie_offsets (img : Arr2 ℝ) (xo yo : ℝ) (t : BowtieTuning) (k l : ℤ) :
    calcBowtieOffsets img xo yo { t with spotRotDeg := t.spotRotDeg + 360 * k, spotExtraRotDeg := t.spotExtraRotDeg + 360 * l } =
      calcBowtieOffsets img xo yo t := by
  refine (turns (f := fun r => calcBowtieOffsets img xo yo { t with spotRotDeg := r, spotExtraRotDeg := t.spotExtraRotDeg + 360 * l }) (fun r => ?_)
    t.spotRotDeg k).trans (turns (f := fun r => calcBowtieOffsets img xo yo { t with spotExtraRotDeg := r }) (fun r => ?_) t.spotExtraRotDeg l)
  · unfold calcBowtieOffsets
    simp only [show Real.pi / 180 * (r + 360) = Real.pi / 180 * r + 2 * Real.pi by ring, show ∀ a b : ℝ, -(a + 2 * Real.pi) + b = -a + b - 2 * Real.pi from fun a b => by ring,
      add_right_comm _ (2 * Real.pi) _, Real.cos_add_two_pi, Real.sin_add_two_pi, Real.cos_sub_two_pi, Real.sin_sub_two_pi]
  · unfold calcBowtieOffsets
    simp only [show Real.pi / 180 * (r + 360) = Real.pi / 180 * r + 2 * Real.pi by ring, ← add_assoc, Real.cos_add_two_pi, Real.sin_add_two_pi]

/-- Two lists name the same lines through the origin: after reordering, angle for angle they differ by half turns. -/
def SameLines (l l' : List ℝ) : Prop := ∃ m : List ℝ, l.Perm m ∧ List.Forall₂ (fun a b : ℝ => ∃ k : ℤ, b = a + 180 * k) m l'

theorem pairFlux_lines (img : Arr2 ℝ) (N : ℕ) (r : ℝ) (l l' : List ℝ) (h : SameLines l l') (sep X Y : ℝ) :
    pairFlux img N r l' sep X Y = pairFlux img N r l sep X Y := by
  obtain ⟨m, hp, hm⟩ := h
  unfold pairFlux
  rw [(hp.map _).sum_eq]
  clear hp
  induction hm with
  | nil => rfl
  | cons hd _ ih =>
    obtain ⟨k, rfl⟩ := hd
    rw [List.map_cons, List.map_cons, List.sum_cons, List.sum_cons, ih]
    congr 1
    refine turns (f := fun d => spotFlux img N r (X + sep * dirX d) (Y + sep * dirY d) + spotFlux img N r (X - sep * dirX d) (Y - sep * dirY d)) (fun d => ?_) _ k
    have e1 : dirX (d + 180) = -dirX d := by
      unfold dirX
      rw [show (d + 180) * Real.pi / 180 = d * Real.pi / 180 + Real.pi by ring, Real.cos_add_pi]
    have e2 : dirY (d + 180) = -dirY d := by
      unfold dirY
      rw [show (d + 180) * Real.pi / 180 = d * Real.pi / 180 + Real.pi by ring, Real.sin_add_pi]
    rw [e1, e2, mul_neg, mul_neg, sub_neg_eq_add, sub_neg_eq_add, ← sub_eq_add_neg, ← sub_eq_add_neg, add_comm]

/-- **C126.** `calc_star_location_from_spots`: the order of the probe directions and half turns added to any of them change nothing. -/
theorem C126_star (S : Solver) (img : Arr2 ℝ) (hx : 2 ≤ img.nc) (hy : 1 ≤ img.nr) (xGuess yGuess : ℝ) (t : StarTuning) (l' : List ℝ)
    (h : SameLines t.probeRotVecDeg l') :
    calcStarLocation S img xGuess yGuess { t with probeRotVecDeg := l' } = calcStarLocation S img xGuess yGuess t := by
  unfold calcStarLocation
  split_ifs with hc
  · rfl
  · push Not at hc
    simp only [roiEnergy_eq img t.nSubpixels hx hy hc.2.2.1 t.roiRadiusPix hc.2.1, pairFlux_lines img _ _ _ _ h]

/-- **C126.** `calc_spot_separation`: likewise. -/
theorem C126_separation (S : Solver) (img : Arr2 ℝ) (hx : 2 ≤ img.nc) (hy : 1 ≤ img.nr) (xo yo : ℝ) (t : StarTuning) (l' : List ℝ)
    (h : SameLines t.probeRotVecDeg l') :
    calcSpotSeparation S img xo yo { t with probeRotVecDeg := l' } = calcSpotSeparation S img xo yo t := by
  unfold calcSpotSeparation
  split_ifs with hc
  · rfl
  · push Not at hc
    simp only [roiEnergy_eq img t.nSubpixels hx hy hc.2.2.1 t.roiRadiusPix hc.2.1, pairFlux_lines img _ _ _ _ h]
  · push Not at hc
    simp only [roiEnergy_eq img t.nSubpixels hx hy hc.2.2.1 t.roiRadiusPix hc.2.1, pairFlux_lines img _ _ _ _ h]

/-! ### Telescope pupils -/

/-- Two lists name the same directions: after reordering, angle for angle they differ by whole turns. -/
def SameDirections (l l' : List ℝ) : Prop := ∃ m : List ℝ, l.Perm m ∧ List.Forall₂ (fun a b : ℝ => ∃ k : ℤ, b = a + 360 * k) m l'

theorem strut_whole_turn (N : ℕ) (dOuter width a x y : ℝ) (k : ℤ) : strutClear N dOuter width (a + 360 * k) x y = strutClear N dOuter width a x y := by
  refine turns (f := fun a => strutClear N dOuter width a x y) (fun a => ?_) a k
  unfold strutClear
  rw [show (a + 360) * Real.pi / 180 = a * Real.pi / 180 + 2 * Real.pi by ring, Real.cos_add_two_pi, Real.sin_add_two_pi]
  congr 1
  refine areaFraction_congr N _ _ (fun x y => ?_) _ _
  unfold inRect turnedX turnedY
  rw [show (a + 360) * Real.pi / 180 = a * Real.pi / 180 + 2 * Real.pi by ring, Real.cos_add_two_pi, Real.sin_add_two_pi]

/-- **C126.** `simple_pupil`: the order of the strut angles and whole turns added to any of them change nothing. -/
theorem C126_pupil (nx ny N : ℕ) (hx : 2 ≤ nx) (hy : 1 ≤ ny) (hN : 1 ≤ N) (xo yo dInner dOuter width : ℝ) (hi : 0 ≤ dInner) (hio : dInner < dOuter)
    (hw : 0 ≤ width) (l l' : List ℝ) (h : SameDirections l l') :
    simplePupil nx ny xo yo dInner dOuter l' width N = simplePupil nx ny xo yo dInner dOuter l width N := by
  rw [pupil_eq nx ny N hx hy hN _ _ _ _ _ _ hi hio hw, pupil_eq nx ny N hx hy hN _ _ _ _ _ _ hi hio hw]
  congr 2
  funext i j
  obtain ⟨m, hp, hm⟩ := h
  unfold pupilValue
  congr 1
  rw [(hp.map _).prod_eq]
  clear hp
  induction hm with
  | nil => rfl
  | cons hd _ ih =>
    obtain ⟨k, rfl⟩ := hd
    rw [List.map_cons, List.map_cons, List.prod_cons, List.prod_cons, ih, strut_whole_turn]

/-! ### Cases -/

example (S : Solver) (img : Arr2 ℝ) (hx : 2 ≤ img.nc) (hy : 1 ≤ img.nr) :
    calcStarLocation S img 1 2 ⟨5, 2, [90, 180], 10, 5, 1, 3⟩ = calcStarLocation S img 1 2 ⟨5, 2, [0, 90], 10, 5, 1, 3⟩ :=
  C126_star S img hx hy 1 2 ⟨5, 2, [0, 90], 10, 5, 1, 3⟩ [90, 180]
    ⟨[90, 0], List.Perm.swap _ _ _, .cons ⟨0, by norm_num⟩ (.cons ⟨1, by norm_num⟩ .nil)⟩

example (S : Solver) (img : Arr2 ℝ) (hx : 2 ≤ img.nc) (hy : 1 ≤ img.nr) :
    calcSpotSeparation S img 1 2 ⟨5, 2, [90, 180], 10, 5, 1, 3⟩ = calcSpotSeparation S img 1 2 ⟨5, 2, [0, 90], 10, 5, 1, 3⟩ :=
  C126_separation S img hx hy 1 2 ⟨5, 2, [0, 90], 10, 5, 1, 3⟩ [90, 180]
    ⟨[90, 0], List.Perm.swap _ _ _, .cons ⟨0, by norm_num⟩ (.cons ⟨1, by norm_num⟩ .nil)⟩

example : simplePupil 100 80 0 0 20 60 [90, -30, 210] 3 11 = simplePupil 100 80 0 0 20 60 [90, 210, 330] 3 11 :=
  C126_pupil 100 80 11 (by norm_num) (by norm_num) (by norm_num) 0 0 20 60 3 (by norm_num) (by norm_num) (by norm_num) [90, 210, 330] [90, -30, 210]
    ⟨[90, 330, 210], (List.Perm.swap _ _ _).cons _, .cons ⟨0, by norm_num⟩ (.cons ⟨-1, by norm_num⟩ (.cons ⟨0, by norm_num⟩ .nil))⟩

example : annularSegments 2 10 30 100 80 0 0 65 (90 + 180 * (-1 : ℤ)) 11 4 = annularSegments 2 10 30 100 80 0 0 65 90 11 4 :=
  C126_pair_partial 10 30 100 80 0 0 65 90 11 4 (-1) (by norm_num) (by norm_num)

example : annularSegments 1 10 30 100 80 0 0 65 (90 + 360 * (-1 : ℤ)) 11 4 = annularSegments 1 10 30 100 80 0 0 65 90 11 4 :=
  C126_segments_partial 1 10 30 100 80 0 0 65 90 11 4 (-1) (by norm_num) (by norm_num)

end Coralign.Props
