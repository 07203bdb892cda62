import Verif.Model.BadPixelsFocal
import Verif.Props.BadPixels
import Verif.Props.FocalFit
import Verif.Props.Matlab
import Verif.Props.OccAstro

/-!
# Property C113 for the satellite-spot estimators and `ampthresh`
-/

namespace Coralign.Props

open Coralign Coralign.Spec

/-! ### Sums over regions of interest -/

theorem roiSumN_nan (mask : Arr2 ℝ) (img : Arr2 (Fl ℝ)) (hr : mask.nr = img.nr) (hc : mask.nc = img.nc) (h : HasNan img) :
    roiSumN mask img = .nan := by
  obtain ⟨n, m, f⟩ := mask
  obtain ⟨n', m', g⟩ := img
  simp only at hr hc
  subst hr; subst hc
  obtain ⟨i, j, h⟩ := h
  unfold roiSumN
  refine (fl_sum_nan _ _).mpr ⟨i, Finset.mem_univ _, (fl_sum_nan _ _).mpr ⟨j, Finset.mem_univ _, ?_⟩⟩
  have e : (⟨n, m, g⟩ : Arr2 (Fl ℝ)).px ((i : ℕ) : ℤ) ((j : ℕ) : ℤ) = some (g i j) := Arr2.px_val (⟨n, m, g⟩ : Arr2 (Fl ℝ)) i j
  have h : g i j = .nan := h
  rw [e, h]
  exact fl_mul_nan _

theorem roiSumN_nums (mask a : Arr2 ℝ) : roiSumN mask a.nums = .num (roiSum mask a) := by
  unfold roiSumN roiSum Arr2.mulPx
  simp only
  rw [← fl_sum_num]
  refine Finset.sum_congr rfl fun i _ => ?_
  rw [← fl_sum_num]
  refine Finset.sum_congr rfl fun j _ => ?_
  have : (a.nums.px ((i : ℕ) : ℤ) ((j : ℕ) : ℤ)).getD 0 = .num ((a.px ((i : ℕ) : ℤ) ((j : ℕ) : ℤ)).getD 0) := by
    unfold Arr2.nums
    rw [Arr2.px_map]
    cases a.px ((i : ℕ) : ℤ) ((j : ℕ) : ℤ) <;> rfl
  rw [this, fl_mul_num]

theorem liftSum_pos (s : ℝ) : 0 < liftSum s := by
  unfold liftSum macheps
  split_ifs <;> [positivity; linarith]

/-! ### `focalfit` -/

theorem offsetN_nan (t : SpotTuning) : t.offsetN .nan = .ok .nan := by
  unfold SpotTuning.offsetN; split_ifs <;> rfl

theorem offsetN_num (t : SpotTuning) (r : ℝ) : t.offsetN (.num r) = (t.offset r).map .num := by
  unfold SpotTuning.offsetN SpotTuning.offset; split_ifs <;> rfl

/-- **C113.** One NaN pixel anywhere in the frame, inside or outside the regions of interest, makes the answer of
`calc_offset_from_spots` NaN: no answer of it is a number. -/
theorem C113_offset (img : Arr2 (Fl ℝ)) (h : HasNan img) (hx : 2 ≤ img.nc) (rotDeg xo yo : ℝ) (t : SpotTuning) (target : ℝ)
    (ht : SpotTuning.Valid t target) : calcOffsetFromSpotsN img rotDeg xo yo t target = .ok .nan := by
  classical
  have hy : 0 < img.nr := by obtain ⟨i, -, -⟩ := h; exact i.pos
  obtain ⟨xt, ext, -⟩ := offset_law t target ht target ht.target
  have hcirc : ∀ cx cy : ℝ, ∃ m, circle img.nc img.nr t.roiRadiusPix cx cy t.nSubpixels false = .ok m := by
    intro cx cy
    have h1 := ht.roi; have h2 := ht.sub
    unfold circle
    rw [if_neg (by rintro (a | a | a | a) <;> first | omega | linarith), if_neg (by omega)]
    exact ⟨_, rfl⟩
  unfold calcOffsetFromSpotsN
  rw [if_neg (by
      rintro (a | a | a | a | a | a | a | a)
      · exact absurd ht.target (not_lt.mpr a)
      · exact absurd ht.sep (not_lt.mpr a)
      · exact absurd ht.roi (not_lt.mpr a)
      · exact absurd ht.sub (not_lt.mpr a)
      · exact absurd ht.step (not_lt.mpr a)
      · exact absurd ht.c1 (not_lt.mpr a)
      · exact absurd ht.c2 (not_lt.mpr a)
      · have := ht.power; omega), if_neg (not_not.mpr ht.power), if_neg (not_not.mpr ht.inside)]
  obtain ⟨m1, e1⟩ := hcirc (Real.cos (Real.pi / 180 * rotDeg) * t.spotSepPix + xo) (Real.sin (Real.pi / 180 * rotDeg) * t.spotSepPix + yo)
  obtain ⟨m2, e2⟩ := hcirc (Real.cos (Real.pi / 180 * rotDeg + Real.pi) * t.spotSepPix + xo)
    (Real.sin (Real.pi / 180 * rotDeg + Real.pi) * t.spotSepPix + yo)
  obtain ⟨a1, b1⟩ := circle_shape _ _ _ _ _ _ _ _ e1
  simp only [e1, e2, bind, Except.bind, roiSumN_nan m1 img a1 b1 h, liftSumN, fl_nan_quot, offsetN_nan, offsetN_num, ext, Except.map,
    fl_nan_add, boundValueN]
  rw [if_neg (not_lt.mpr ht.step.le)]
  rfl

theorem boundValueN_num (x m : ℝ) : boundValueN (.num x) m = (boundValue x m).map .num := rfl

theorem res_map_bind {α β γ : Type} (r : Res α) (f : α → β) (g : β → Res γ) : (r.map f >>= g) = (r >>= fun a => g (f a)) := by
  cases r <;> rfl

theorem res_bind_map {α β γ : Type} (r : Res α) (f : α → Res β) (g : β → γ) : (r >>= f).map g = (r >>= fun a => (f a).map g) := by
  cases r <;> rfl

/-- **C113.** Without NaN pixels `calc_offset_from_spots` is the function of C28. -/
theorem C113_offset_numbers (a : Arr2 ℝ) (rotDeg xo yo : ℝ) (t : SpotTuning) (target : ℝ) :
    calcOffsetFromSpotsN a.nums rotDeg xo yo t target = (calcOffsetFromSpots a rotDeg xo yo t target).map .num := by
  classical
  unfold calcOffsetFromSpotsN calcOffsetFromSpots
  by_cases h1 : target ≤ 0 ∨ t.spotSepPix ≤ 0 ∨ t.roiRadiusPix ≤ 0 ∨ t.nSubpixels ≤ 0 ∨ t.maxStep ≤ 0 ∨ t.fitCoefPow1 ≤ 0 ∨
      t.fitCoefPow2 ≤ 0 ∨ t.powerOfFit ≤ 0
  · rw [if_pos h1, if_pos h1]; rfl
  rw [if_neg h1, if_neg h1]
  by_cases h2 : ¬ (t.powerOfFit = 1 ∨ t.powerOfFit = 2)
  · rw [if_pos h2, if_pos h2]; rfl
  rw [if_neg h2, if_neg h2]
  by_cases h3 : ¬ (t.maskIsInsideSpots = 0 ∨ t.maskIsInsideSpots = 1)
  · rw [if_pos h3, if_pos h3]; rfl
  rw [if_neg h3, if_neg h3]
  rw [res_bind_map]
  refine bind_congr fun m1 => ?_
  rw [res_bind_map]
  refine bind_congr fun m2 => ?_
  have hq : (liftSumN (roiSumN m1 a.nums)).quot (liftSumN (roiSumN m2 a.nums))
      = .num (liftSum (roiSum m1 a) / liftSum (roiSum m2 a)) := by
    rw [roiSumN_nums, roiSumN_nums]
    show (if liftSum (roiSum m2 a) = 0 then Fl.nan else _) = _
    rw [if_neg (liftSum_pos _).ne']
  simp only [hq, offsetN_num, res_map_bind]
  rw [res_bind_map]
  refine bind_congr fun x => ?_
  rw [res_bind_map]
  refine bind_congr fun xt => ?_
  have : (Fl.num x + (Fl.num xt).neg : Fl ℝ) = .num (x - xt) := by
    show Fl.num (x + -xt) = _; rw [sub_eq_add_neg]
  rw [this, boundValueN_num, res_map_bind, res_bind_map]
  rfl

theorem bowtieAxisN_nan (c1 c2 target : ℝ) (ht : 0 < target) : bowtieAxisN c1 c2 .nan target = .ok .nan := by
  unfold bowtieAxisN calcOffsetQuadraticN calcOffsetQuadratic
  simp only
  rw [if_neg (not_le.mpr ht)]
  rfl

theorem bowtieAxisN_num (c1 c2 r target : ℝ) : bowtieAxisN c1 c2 (.num r) target = (bowtieAxis c1 c2 r target).map .num := by
  unfold bowtieAxisN bowtieAxis calcOffsetQuadraticN
  rw [res_map_bind, res_bind_map]
  refine bind_congr fun x => ?_
  rw [res_map_bind, res_bind_map]
  refine bind_congr fun y => ?_
  show Except.ok (Fl.num (-x + - -y)) = _
  rw [← sub_eq_add_neg]
  rfl

/-- **C113.** One NaN pixel anywhere in the frame makes both answers of `calc_bowtie_offsets_from_spots` NaN. -/
theorem C113_bowtie (img : Arr2 (Fl ℝ)) (h : HasNan img) (hx : 2 ≤ img.nc) (xo yo : ℝ) (t : BowtieTuning)
    (ht : BowtieTuning.Valid t) (hxt : 0 < t.xRatioTarget) (hyt : 0 < t.yRatioTarget) :
    calcBowtieOffsetsN img xo yo t = .ok (.nan, .nan) := by
  classical
  have hy : 0 < img.nr := by obtain ⟨i, -, -⟩ := h; exact i.pos
  have hcirc : ∀ cx cy : ℝ, ∃ m, circle img.nc img.nr t.roiRadiusPix cx cy t.nSubpixels false = .ok m ∧ m.nr = img.nr ∧ m.nc = img.nc := by
    intro cx cy
    have h1 := ht.roi; have h2 := ht.sub
    have : ∃ m, circle img.nc img.nr t.roiRadiusPix cx cy t.nSubpixels false = .ok m := by
      unfold circle
      rw [if_neg (by rintro (a | a | a | a) <;> first | omega | linarith), if_neg (by omega)]
      exact ⟨_, rfl⟩
    obtain ⟨m, e⟩ := this
    exact ⟨m, e, circle_shape _ _ _ _ _ _ _ _ e⟩
  unfold calcBowtieOffsetsN
  rw [if_neg (by
      rintro (a | a | a | a | a | a | a | a)
      · exact absurd ht.sep (not_lt.mpr a)
      · exact absurd ht.roi (not_lt.mpr a)
      · exact absurd ht.sub (not_lt.mpr a)
      · exact absurd ht.step (not_lt.mpr a)
      · exact absurd ht.c1x (not_lt.mpr a)
      · exact absurd ht.c2x (not_lt.mpr a)
      · exact absurd ht.c1y (not_lt.mpr a)
      · exact absurd ht.c2y (not_lt.mpr a))]
  simp only
  obtain ⟨m1, e1, a1, b1⟩ := hcirc (t.spotSepPix * Real.cos (Real.pi / 180 * t.spotRotDeg + Real.pi / 180 * t.spotExtraRotDeg) + xo)
    (t.spotSepPix * Real.sin (Real.pi / 180 * t.spotRotDeg + Real.pi / 180 * t.spotExtraRotDeg) + yo)
  obtain ⟨m2, e2, a2, b2⟩ := hcirc (-t.spotSepPix * Real.cos (-(Real.pi / 180 * t.spotRotDeg) + Real.pi / 180 * t.spotExtraRotDeg) + xo)
    (-t.spotSepPix * Real.sin (-(Real.pi / 180 * t.spotRotDeg) + Real.pi / 180 * t.spotExtraRotDeg) + yo)
  obtain ⟨m3, e3, a3, b3⟩ := hcirc (-t.spotSepPix * Real.cos (Real.pi / 180 * t.spotRotDeg + Real.pi / 180 * t.spotExtraRotDeg) + xo)
    (-t.spotSepPix * Real.sin (Real.pi / 180 * t.spotRotDeg + Real.pi / 180 * t.spotExtraRotDeg) + yo)
  obtain ⟨m4, e4, a4, b4⟩ := hcirc (t.spotSepPix * Real.cos (-(Real.pi / 180 * t.spotRotDeg) + Real.pi / 180 * t.spotExtraRotDeg) + xo)
    (t.spotSepPix * Real.sin (-(Real.pi / 180 * t.spotRotDeg) + Real.pi / 180 * t.spotExtraRotDeg) + yo)
  rw [e1, e2, e3, e4]
  simp only [bind, Except.bind, roiSumN_nan m1 img a1 b1 h, roiSumN_nan m2 img a2 b2 h, roiSumN_nan m3 img a3 b3 h, roiSumN_nan m4 img a4 b4 h,
    liftSumN, fl_nan_add, fl_nan_quot, bowtieAxisN_nan _ _ _ hxt, bowtieAxisN_nan _ _ _ hyt, boundValueN]
  rw [if_neg (not_lt.mpr ht.step.le)]

/-- **C113.** Without NaN pixels `calc_bowtie_offsets_from_spots` is the function of C28. -/
theorem C113_bowtie_numbers (a : Arr2 ℝ) (xo yo : ℝ) (t : BowtieTuning) :
    calcBowtieOffsetsN a.nums xo yo t = (calcBowtieOffsets a xo yo t).map fun p => (.num p.1, .num p.2) := by
  classical
  unfold calcBowtieOffsetsN calcBowtieOffsets
  by_cases h1 : t.spotSepPix ≤ 0 ∨ t.roiRadiusPix ≤ 0 ∨ t.nSubpixels ≤ 0 ∨ t.maxStep ≤ 0 ∨ t.fitCoefPow1x ≤ 0 ∨
      t.fitCoefPow2x ≤ 0 ∨ t.fitCoefPow1y ≤ 0 ∨ t.fitCoefPow2y ≤ 0
  · rw [if_pos h1, if_pos h1]; rfl
  rw [if_neg h1, if_neg h1]
  simp only
  rw [res_bind_map]
  refine bind_congr fun m1 => ?_
  rw [res_bind_map]
  refine bind_congr fun m2 => ?_
  rw [res_bind_map]
  refine bind_congr fun m3 => ?_
  rw [res_bind_map]
  refine bind_congr fun m4 => ?_
  have key : ∀ s1 s2 s3 s4 : ℝ, 0 < s3 → 0 < s4 → ((Fl.num s1 + Fl.num s2).quot (Fl.num s3 + Fl.num s4) : Fl ℝ) = .num ((s1 + s2) / (s3 + s4)) := by
    intro s1 s2 s3 s4 h3 h4
    show (if s3 + s4 = 0 then Fl.nan else _) = _
    rw [if_neg (by linarith)]
  simp only [roiSumN_nums, liftSumN]
  rw [key _ _ _ _ (liftSum_pos _) (liftSum_pos _), key _ _ _ _ (liftSum_pos _) (liftSum_pos _), bowtieAxisN_num, bowtieAxisN_num,
    res_map_bind, res_bind_map]
  refine bind_congr fun x => ?_
  rw [res_map_bind, res_bind_map]
  refine bind_congr fun y => ?_
  rw [boundValueN_num, res_map_bind, res_bind_map]
  refine bind_congr fun x' => ?_
  rw [boundValueN_num, res_map_bind, res_bind_map]
  rfl

/-! ### `occastro` -/

theorem roiMask_shape (nx ny : ℕ) (radius : ℝ) (nSub : ℤ) (rots : List ℝ) (sep xc yc : ℝ) (m : Arr2 ℝ)
    (h : roiMask nx ny radius nSub rots sep xc yc = .ok m) : m.nr = ny ∧ m.nc = nx := by
  unfold roiMask at h
  have gen : ∀ (l : List ℝ) (m0 m : Arr2 ℝ), m0.nr = ny ∧ m0.nc = nx →
      l.foldlM (fun mask rotDeg => do
        let rot := Real.pi / 180 * rotDeg
        let plus ← circle nx ny radius (Real.cos rot * sep + xc) (Real.sin rot * sep + yc) nSub false
        let minus ← circle nx ny radius (Real.cos (rot + Real.pi) * sep + xc) (Real.sin (rot + Real.pi) * sep + yc) nSub false
        Except.ok ((mask.addPx plus).addPx minus)) m0 = (.ok m : Res (Arr2 ℝ)) → m.nr = ny ∧ m.nc = nx := by
    intro l
    induction l with
    | nil => intro m0 m h0 e; cases e; exact h0
    | cons r l ih =>
      intro m0 m h0 e
      rw [List.foldlM_cons] at e
      simp only at e
      cases h1 : circle nx ny radius (Real.cos (Real.pi / 180 * r) * sep + xc) (Real.sin (Real.pi / 180 * r) * sep + yc) nSub false with
      | error x => rw [h1] at e; cases e
      | ok p =>
        cases h2 : circle nx ny radius (Real.cos (Real.pi / 180 * r + Real.pi) * sep + xc) (Real.sin (Real.pi / 180 * r + Real.pi) * sep + yc) nSub false with
        | error x => rw [h1, h2] at e; cases e
        | ok q => rw [h1, h2] at e; exact ih ((m0.addPx p).addPx q) _ h0 e
  exact gen rots _ m ⟨Int.toNat_natCast _, Int.toNat_natCast _⟩ h

theorem roiMaskN_shape (nx ny : ℕ) (radius : ℝ) (nSub : ℤ) (rots : List ℝ) (sep xc yc : Fl ℝ) (m : Arr2 ℝ)
    (h : roiMaskN nx ny radius nSub rots sep xc yc = .ok m) : m.nr = ny ∧ m.nc = nx := by
  have z : ∀ m, (do
      let _ ← roiMask nx ny radius nSub rots 0 0 0
      Except.ok (Arr2.full (ny : ℤ).toNat (nx : ℤ).toNat 0)) = (.ok m : Res (Arr2 ℝ)) → m.nr = ny ∧ m.nc = nx := by
    intro m e
    cases h1 : roiMask nx ny radius nSub rots 0 0 0 with
    | error x => rw [h1] at e; cases e
    | ok p => rw [h1] at e; cases e; exact ⟨Int.toNat_natCast _, Int.toNat_natCast _⟩
  cases sep with
  | nan => exact z m h
  | num s =>
    cases xc with
    | nan => exact z m h
    | num x =>
      cases yc with
      | nan => exact z m h
      | num y => exact roiMask_shape nx ny radius nSub rots s x y m h

theorem roiEnergyN_nan (img : Arr2 (Fl ℝ)) (h : HasNan img) (radius : ℝ) (nSub : ℤ) (rots : List ℝ) (sep xc yc v : Fl ℝ)
    (e : roiEnergyN img radius nSub rots sep xc yc = .ok v) : v = .nan := by
  unfold roiEnergyN at e
  cases h1 : roiMaskN img.nc img.nr radius nSub rots sep xc yc with
  | error x => rw [h1] at e; cases e
  | ok m =>
    rw [h1] at e
    obtain ⟨a, b⟩ := roiMaskN_shape _ _ _ _ _ _ _ _ _ h1
    cases e
    exact roiSumN_nan m img a b h

theorem mapM_all {α β : Type} (f : α → Res β) (P : β → Prop) (l : List α) (hf : ∀ a b, f a = .ok b → P b) (l' : List β)
    (h : l.mapM f = .ok l') : l'.length = l.length ∧ ∀ b ∈ l', P b := by
  induction l generalizing l' with
  | nil => cases h; exact ⟨rfl, fun b hb => absurd hb List.not_mem_nil⟩
  | cons a l ih =>
    rw [List.mapM_cons] at h
    cases h1 : f a with
    | error e => rw [h1] at h; cases h
    | ok b =>
      cases h2 : l.mapM f with
      | error e => rw [h1, h2] at h; cases h
      | ok l2 =>
        rw [h1, h2] at h
        cases h
        obtain ⟨i1, i2⟩ := ih l2 h2
        refine ⟨by simp [i1], fun c hc => ?_⟩
        rcases List.mem_cons.mp hc with rfl | hc
        · exact hf _ _ h1
        · exact i2 c hc

theorem allNums_nan (l : List (Fl ℝ)) (h : Fl.nan ∈ l) : allNums l = none := by
  induction l with
  | nil => exact absurd h List.not_mem_nil
  | cons a l ih =>
    cases a with
    | nan => rfl
    | num x =>
      rcases List.mem_cons.mp h with h | h
      · cases h
      · unfold allNums; rw [ih h]; rfl

theorem allNums_nums (l : List ℝ) : allNums (l.map .num) = some l := by
  induction l with
  | nil => rfl
  | cons a l ih => show (allNums (l.map .num)).map _ = _; rw [ih]; rfl

theorem stepVecN_length (n : ℕ) (step : ℝ) (c : Fl ℝ) : (stepVecN n step c).length = n := by
  cases c <;> simp [stepVecN, stepVec]

theorem nanOutcome_ok (nanFit : Option PyExc) (v : Fl ℝ) (h : nanOutcome nanFit = .ok v) : v = .nan := by
  unfold nanOutcome at h
  cases nanFit <;> cases h
  rfl

theorem sepLoopN_nan (S : Solver) (nanFit : Option PyExc) (cost : Fl ℝ → Res (Fl ℝ)) (hc : ∀ s v, cost s = .ok v → v = .nan)
    (nSteps : ℕ) (hn : 0 < nSteps) (step : ℝ) (k : ℕ) (est r : Fl ℝ) (h : sepLoopN S nanFit cost nSteps step k est = .ok r) :
    (k = 0 ∧ r = est) ∨ r = .nan := by
  induction k generalizing est with
  | zero => cases h; exact Or.inl ⟨rfl, rfl⟩
  | succ k ih =>
    right
    rw [sepLoopN] at h
    cases h1 : (stepVecN nSteps step est).mapM cost with
    | error e => simp only [h1, bind, Except.bind] at h; cases h
    | ok c =>
      obtain ⟨hl, hall⟩ := mapM_all cost (fun v => v = .nan) _ hc _ h1
      rw [stepVecN_length] at hl
      simp only [h1, bind, Except.bind] at h
      have hcn : Fl.nan ∈ c := by
        cases c with
        | nil => simp at hl; omega
        | cons a l => rw [hall a List.mem_cons_self]; exact List.mem_cons_self
      have hfit : findOptimum1dN S nanFit (stepVecN nSteps step est) c = nanOutcome nanFit := by
        unfold findOptimum1dN
        rw [if_neg (by rw [stepVecN_length, hl]; simp), if_neg (by rw [stepVecN_length]; omega), allNums_nan c hcn]
        cases allNums (stepVecN nSteps step est) <;> rfl
      rw [hfit] at h
      cases h2 : nanOutcome nanFit with
      | error e => rw [h2] at h; cases h
      | ok v =>
        rw [h2] at h
        have := nanOutcome_ok _ _ h2
        subst this
        rcases ih _ h with ⟨-, e⟩ | e <;> exact e

/-- **C113.** With a NaN pixel anywhere in the frame `calc_spot_separation` never answers a number: it answers NaN, or the least-squares
routine raises. -/
theorem C113_separation (S : Solver) (nanFit : Option PyExc) (img : Arr2 (Fl ℝ)) (h : HasNan img) (xOffset yOffset : ℝ) (t : StarTuning)
    (r : Fl ℝ) (e : calcSpotSeparationN S nanFit img xOffset yOffset t = .ok r) : r = .nan := by
  unfold calcSpotSeparationN at e
  split_ifs at e with h1 h2
  · have hn : 0 < t.nSteps.toNat := by push Not at h1; omega
    cases h3 : (stepVecN t.nSteps.toNat t.stepSize (.num t.sepPix)).mapM
        (fun sep => roiEnergyN img t.roiRadiusPix t.nSubpixels t.probeRotVecDeg sep (.num xOffset) (.num yOffset)) with
    | error x => simp only [h3, bind, Except.bind] at e; cases e
    | ok c =>
      simp only [h3, bind, Except.bind] at e
      rcases sepLoopN_nan S nanFit _ (fun s v => roiEnergyN_nan img h _ _ _ _ _ _ _) _ hn _ _ _ _ e with ⟨hk, -⟩ | e
      · omega
      · exact e
  · have hn : 0 < t.nSteps.toNat := by push Not at h1; omega
    rcases sepLoopN_nan S nanFit _ (fun s v => roiEnergyN_nan img h _ _ _ _ _ _ _) _ hn _ _ _ _ e with ⟨hk, -⟩ | e
    · push Not at h1; omega
    · exact e

theorem starLoopN_nan (S : Solver) (nanFit : Option PyExc) (cost : Fl ℝ → Fl ℝ → Res (Fl ℝ)) (hc : ∀ x y v, cost x y = .ok v → v = .nan)
    (nSteps : ℕ) (hn : 0 < nSteps) (step : ℝ) (k : ℕ) (est r : Fl ℝ × Fl ℝ) (h : starLoopN S nanFit cost nSteps step k est = .ok r) :
    (k = 0 ∧ r = est) ∨ r = (.nan, .nan) := by
  classical
  induction k generalizing est with
  | zero => cases h; exact Or.inl ⟨rfl, rfl⟩
  | succ k ih =>
    right
    rw [starLoopN] at h
    cases h1 : costGridN (stepVecN nSteps step est.1) (stepVecN nSteps step est.2) cost with
    | error e => simp only [h1, bind, Except.bind] at h; cases h
    | ok c =>
      simp only [h1, bind, Except.bind] at h
      have hcn : HasNan c := by
        unfold costGridN at h1
        cases h2 : (stepVecN nSteps step est.2).mapM fun y => (stepVecN nSteps step est.1).mapM fun x => cost x y with
        | error e => rw [h2] at h1; cases h1
        | ok rows =>
          rw [h2] at h1
          cases h1
          obtain ⟨hl, hall⟩ := mapM_all _ (fun row : List (Fl ℝ) => row.length = nSteps ∧ ∀ v ∈ row, v = .nan) _ (by
            intro y row hrow
            obtain ⟨l1, l2⟩ := mapM_all _ (fun v => v = .nan) _ (fun x v => hc x y v) _ hrow
            rw [stepVecN_length] at l1
            exact ⟨l1, l2⟩) _ h2
          rw [stepVecN_length] at hl
          have hrow := hall (rows[0]'(by omega)) (List.getElem_mem _)
          refine ⟨⟨0, by simp only [stepVecN_length]; exact hn⟩, ⟨0, by simp only [stepVecN_length]; exact hn⟩, ?_⟩
          simp only
          have e0 : rows.getD 0 [] = rows[0]'(by omega) := List.getD_eq_getElem _ _ (by omega)
          rw [e0, List.getD_eq_getElem _ _ (by rw [hrow.1]; exact hn)]
          exact hrow.2 _ (List.getElem_mem _)
      have hfit : gridFitN S nanFit (stepVecN nSteps step est.1) (stepVecN nSteps step est.2) c = (nanOutcome nanFit).map fun v => (v, v) := by
        unfold gridFitN
        cases allNums (stepVecN nSteps step est.1) <;> cases allNums (stepVecN nSteps step est.2) <;> simp only
        rw [if_pos hcn]
      rw [hfit] at h
      cases h2 : nanOutcome nanFit with
      | error e => rw [h2] at h; cases h
      | ok v =>
        rw [h2] at h
        have := nanOutcome_ok _ _ h2
        subst this
        rcases ih _ h with ⟨-, e⟩ | e <;> exact e

/-- **C113.** With a NaN pixel anywhere in the frame `calc_star_location_from_spots` never answers numbers: both offsets are NaN, or the
least-squares routine raises. -/
theorem C113_star (S : Solver) (nanFit : Option PyExc) (img : Arr2 (Fl ℝ)) (h : HasNan img) (xGuess yGuess : ℝ) (t : StarTuning)
    (r : Fl ℝ × Fl ℝ) (e : calcStarLocationN S nanFit img xGuess yGuess t = .ok r) : r = (.nan, .nan) := by
  unfold calcStarLocationN at e
  split_ifs at e with h1
  have hn : 0 < t.nSteps.toNat := by push Not at h1; omega
  rcases starLoopN_nan S nanFit _ (fun x y v => roiEnergyN_nan img h _ _ _ _ _ _ _) _ hn _ _ _ _ e with ⟨hk, -⟩ | e
  · push Not at h1; omega
  · exact e

/-- The values every tuning file of `occastro` must have. -/
structure _root_.Coralign.StarTuning.Accepted (t : StarTuning) : Prop where
  sep : 0 < t.sepPix
  roi : 0 < t.roiRadiusPix
  sub : 0 < t.nSubpixels
  steps : 0 < t.nSteps
  size : 0 < t.stepSize
  iter : 0 < t.nIter

theorem roiEnergyN_eq_nan (img : Arr2 (Fl ℝ)) (h : HasNan img) (hx : 2 ≤ img.nc) (radius : ℝ) (hr : 0 < radius) (nSub : ℤ) (hs : 0 < nSub)
    (rots : List ℝ) (sep xc yc : Fl ℝ) : roiEnergyN img radius nSub rots sep xc yc = .ok .nan := by
  have hy : 0 < img.nr := by obtain ⟨i, -, -⟩ := h; exact i.pos
  have hm : ∀ s x y : ℝ, ∃ m, roiMask img.nc img.nr radius nSub rots s x y = .ok m := by
    intro s x y
    have e := roiEnergy_eq img.denan nSub hx hy hs radius hr s x y rots
    unfold roiEnergy at e
    have e' : (roiMask img.nc img.nr radius nSub rots s x y >>= fun m => (Except.ok (roiSum m img.denan) : Res ℝ)) = _ := e
    cases h1 : roiMask img.nc img.nr radius nSub rots s x y with
    | ok m => exact ⟨m, rfl⟩
    | error z => rw [h1] at e'; cases e'
  have ok : ∃ v, roiEnergyN img radius nSub rots sep xc yc = .ok v := by
    obtain ⟨m0, e0⟩ := hm 0 0 0
    have z : ∃ v, ((do
        let _ ← roiMask img.nc img.nr radius nSub rots 0 0 0
        Except.ok (Arr2.full (img.nr : ℤ).toNat (img.nc : ℤ).toNat 0) : Res (Arr2 ℝ)) >>= fun m => (Except.ok (roiSumN m img) : Res (Fl ℝ))) = .ok v := by
      rw [e0]; exact ⟨_, rfl⟩
    unfold roiEnergyN
    cases sep with
    | nan => exact z
    | num s =>
      cases xc with
      | nan => exact z
      | num x =>
        cases yc with
        | nan => exact z
        | num y =>
          obtain ⟨m, e⟩ := hm s x y
          exact ⟨roiSumN m img, by
            show (roiMask img.nc img.nr radius nSub rots s x y >>= fun m => (Except.ok (roiSumN m img) : Res (Fl ℝ))) = _
            rw [e]; rfl⟩
  obtain ⟨v, e⟩ := ok
  rw [e, roiEnergyN_nan img h _ _ _ _ _ _ v e]

theorem mapM_total {α β : Type} (f : α → Res β) (b : β) (hf : ∀ a, f a = .ok b) (l : List α) : l.mapM f = .ok (List.replicate l.length b) := by
  induction l with
  | nil => rfl
  | cons a l ih => rw [List.mapM_cons, hf, ih]; rfl

theorem sepLoopN_total (S : Solver) (nanFit : Option PyExc) (cost : Fl ℝ → Res (Fl ℝ)) (hc : ∀ s, cost s = .ok .nan)
    (nSteps : ℕ) (hn : 0 < nSteps) (step : ℝ) (k : ℕ) (est : Fl ℝ) :
    sepLoopN S nanFit cost nSteps step (k + 1) est = nanOutcome nanFit := by
  have one : ∀ k est, sepLoopN S nanFit cost nSteps step (k + 1) est =
      (nanOutcome nanFit >>= fun est' => sepLoopN S nanFit cost nSteps step k est') := by
    intro k est
    have hfit : findOptimum1dN S nanFit (stepVecN nSteps step est) (List.replicate nSteps .nan) = nanOutcome nanFit := by
      unfold findOptimum1dN
      rw [if_neg (by simp [stepVecN_length]), if_neg (by rw [stepVecN_length]; omega),
        allNums_nan _ (List.mem_replicate.mpr ⟨by omega, rfl⟩)]
      cases allNums (stepVecN nSteps step est) <;> rfl
    rw [sepLoopN]
    rw [mapM_total cost .nan hc, stepVecN_length]
    show (findOptimum1dN S nanFit _ _ >>= _) = _
    rw [hfit]
  induction k generalizing est with
  | zero => rw [one]; cases nanFit <;> rfl
  | succ k ih =>
    rw [one]
    cases nanFit with
    | some e => rfl
    | none => exact ih .nan

/-- **C113.** On a frame with a NaN pixel, with every acceptable tuning, `calc_spot_separation` ends with what the least-squares routine does
with NaN samples: NaN, or its exception. -/
theorem C113_separation_outcome (S : Solver) (nanFit : Option PyExc) (img : Arr2 (Fl ℝ)) (h : HasNan img) (hx : 2 ≤ img.nc) (xOffset yOffset : ℝ)
    (t : StarTuning) (ht : t.Accepted) : calcSpotSeparationN S nanFit img xOffset yOffset t = nanOutcome nanFit := by
  obtain ⟨h1, h2, h3, h4, h5, h6⟩ := ht
  have hc : ∀ s, roiEnergyN img t.roiRadiusPix t.nSubpixels t.probeRotVecDeg s (.num xOffset) (.num yOffset) = .ok .nan :=
    fun s => roiEnergyN_eq_nan img h hx _ h2 _ h3 _ _ _ _
  unfold calcSpotSeparationN
  rw [if_neg (by rintro (a | a | a | a | a | a) <;> first | omega | linarith)]
  simp only
  by_cases hi : t.nIter > 1
  · rw [if_pos hi, mapM_total _ .nan hc]
    obtain ⟨k, hk⟩ : ∃ k, t.nIter.toNat - 1 = k + 1 := ⟨t.nIter.toNat - 2, by omega⟩
    rw [hk]
    exact sepLoopN_total S nanFit _ hc _ (by omega) _ _ _
  · obtain ⟨k, hk⟩ : ∃ k, t.nIter.toNat = k + 1 := ⟨t.nIter.toNat - 1, by omega⟩
    rw [if_neg hi, hk]
    exact sepLoopN_total S nanFit _ hc _ (by omega) _ _ _

theorem starLoopN_total (S : Solver) (nanFit : Option PyExc) (cost : Fl ℝ → Fl ℝ → Res (Fl ℝ)) (hc : ∀ x y, cost x y = .ok .nan)
    (nSteps : ℕ) (hn : 0 < nSteps) (step : ℝ) (k : ℕ) (est : Fl ℝ × Fl ℝ) :
    starLoopN S nanFit cost nSteps step (k + 1) est = (nanOutcome nanFit).map fun v => (v, v) := by
  classical
  have one : ∀ k est, starLoopN S nanFit cost nSteps step (k + 1) est =
      ((nanOutcome nanFit).map (fun v => (v, v)) >>= fun est' => starLoopN S nanFit cost nSteps step k est') := by
    intro k est
    rw [starLoopN]
    unfold costGridN
    rw [mapM_total (fun y => (stepVecN nSteps step est.1).mapM fun x => cost x y) (List.replicate (stepVecN nSteps step est.1).length .nan)
      (fun y => mapM_total (fun x => cost x y) .nan (fun x => hc x y) _)]
    simp only [stepVecN_length]
    show (gridFitN S nanFit _ _ _ >>= _) = _
    have hfit : ∀ c : Arr2 (Fl ℝ), HasNan c → gridFitN S nanFit (stepVecN nSteps step est.1) (stepVecN nSteps step est.2) c =
        (nanOutcome nanFit).map fun v => (v, v) := by
      intro c hcn
      unfold gridFitN
      cases allNums (stepVecN nSteps step est.1) <;> cases allNums (stepVecN nSteps step est.2) <;> simp only
      rw [if_pos hcn]
    rw [hfit]
    refine ⟨⟨0, by simpa [stepVecN_length] using hn⟩, ⟨0, by simpa [stepVecN_length] using hn⟩, ?_⟩
    have e0 : (List.replicate nSteps (List.replicate nSteps (Fl.nan : Fl ℝ))).getD 0 [] = List.replicate nSteps .nan := by
      rw [List.getD_eq_getElem _ _ (by simpa using hn), List.getElem_replicate]
    show ((List.replicate nSteps (List.replicate nSteps (Fl.nan : Fl ℝ))).getD 0 []).getD 0 .nan = .nan
    rw [e0, List.getD_eq_getElem _ _ (by simpa using hn), List.getElem_replicate]
  induction k generalizing est with
  | zero => rw [one]; cases nanFit <;> rfl
  | succ k ih =>
    rw [one]
    cases nanFit with
    | some e => rfl
    | none => exact ih (.nan, .nan)

/-- **C113.** On a frame with a NaN pixel, with every acceptable tuning, `calc_star_location_from_spots` ends with what the least-squares
routine does with NaN samples: NaN for both offsets, or its exception. -/
theorem C113_star_outcome (S : Solver) (nanFit : Option PyExc) (img : Arr2 (Fl ℝ)) (h : HasNan img) (hx : 2 ≤ img.nc) (xGuess yGuess : ℝ)
    (t : StarTuning) (ht : t.Accepted) :
    calcStarLocationN S nanFit img xGuess yGuess t = (nanOutcome nanFit).map fun v => (v, v) := by
  obtain ⟨h1, h2, h3, h4, h5, h6⟩ := ht
  unfold calcStarLocationN
  rw [if_neg (by rintro (a | a | a | a | a | a) <;> first | omega | linarith)]
  obtain ⟨k, hk⟩ : ∃ k, t.nIter.toNat = k + 1 := ⟨t.nIter.toNat - 1, by omega⟩
  rw [hk]
  exact starLoopN_total S nanFit _ (fun x y => roiEnergyN_eq_nan img h hx _ h2 _ h3 _ _ _ _) _ (by omega) _ _ _

/-! ### Frames of numbers -/

theorem roiEnergyN_nums (a : Arr2 ℝ) (radius : ℝ) (nSub : ℤ) (rots : List ℝ) (sep xc yc : ℝ) :
    roiEnergyN a.nums radius nSub rots (.num sep) (.num xc) (.num yc) = (roiEnergy a radius nSub rots sep xc yc).map .num := by
  unfold roiEnergyN roiEnergy
  rw [res_bind_map]
  refine bind_congr fun m => ?_
  rw [roiSumN_nums]
  rfl

theorem mapM_nums {α α' β β' : Type} (g : α → α') (k : β → β') (f : α → Res β) (f' : α' → Res β') (l : List α)
    (hf : ∀ a, f' (g a) = (f a).map k) : (l.map g).mapM f' = (l.mapM f).map (List.map k) := by
  induction l with
  | nil => rfl
  | cons a l ih =>
    rw [List.map_cons, List.mapM_cons, List.mapM_cons, hf, ih, res_map_bind, res_bind_map]
    refine bind_congr fun b => ?_
    rw [res_map_bind, res_bind_map]
    rfl

theorem lineArgmaxN_nums (xs cs : List ℝ) : lineArgmaxN (xs.map .num) (cs.map .num) = .num (lineArgmax xs cs) := by
  unfold lineArgmaxN lineArgmax
  rw [List.length_map, argmaxUptoN_num _ (fun k => cs.getD k 0) _ (fun i _ => List.getD_map ..)]
  exact List.getD_map ..

theorem sepLoopN_nums (S : Solver) (nanFit : Option PyExc) (cost : ℝ → Res ℝ) (costN : Fl ℝ → Res (Fl ℝ))
    (hc : ∀ s, costN (.num s) = (cost s).map .num) (nSteps : ℕ) (step : ℝ) (k : ℕ) (est : ℝ) :
    sepLoopN S nanFit costN nSteps step k (.num est) = (sepLoop S cost nSteps step k est).map .num := by
  induction k generalizing est with
  | zero => rfl
  | succ k ih =>
    rw [sepLoopN, sepLoop]
    simp only [stepVecN]
    rw [mapM_nums .num .num cost costN _ hc, res_map_bind, res_bind_map]
    cases h1 : (stepVec nSteps step est).mapM cost with
    | error e => rfl
    | ok c =>
      show (findOptimum1dN S nanFit _ _ >>= _) = Except.map _ (findOptimum1d S _ c >>= _)
      have : findOptimum1dN S nanFit ((stepVec nSteps step est).map .num) (c.map .num) = (findOptimum1d S (stepVec nSteps step est) c).map .num := by
        unfold findOptimum1dN
        rw [allNums_nums, allNums_nums]
        simp only [List.length_map]
        by_cases g1 : (stepVec nSteps step est).length ≠ c.length
        · rw [if_pos g1]; unfold findOptimum1d; rw [dif_pos g1]; rfl
        rw [if_neg g1]
        by_cases g2 : (stepVec nSteps step est).length = 0
        · rw [if_pos g2]; unfold findOptimum1d; rw [dif_neg g1, if_pos g2]; rfl
        rw [if_neg g2]
      rw [this, res_map_bind, res_bind_map]
      exact bind_congr fun x => ih x

/-- **C113.** Without NaN pixels `calc_spot_separation` is the function of the other claims about it. -/
theorem C113_separation_numbers (S : Solver) (nanFit : Option PyExc) (a : Arr2 ℝ) (xOffset yOffset : ℝ) (t : StarTuning) :
    calcSpotSeparationN S nanFit a.nums xOffset yOffset t = (calcSpotSeparation S a xOffset yOffset t).map .num := by
  unfold calcSpotSeparationN calcSpotSeparation
  by_cases h1 : t.sepPix ≤ 0 ∨ t.roiRadiusPix ≤ 0 ∨ t.nSubpixels ≤ 0 ∨ t.nSteps ≤ 0 ∨ t.stepSize ≤ 0 ∨ t.nIter ≤ 0
  · rw [if_pos h1, if_pos h1]; rfl
  rw [if_neg h1, if_neg h1]
  have hc : ∀ s, roiEnergyN a.nums t.roiRadiusPix t.nSubpixels t.probeRotVecDeg (.num s) (.num xOffset) (.num yOffset) =
      (roiEnergy a t.roiRadiusPix t.nSubpixels t.probeRotVecDeg s xOffset yOffset).map .num := fun s => roiEnergyN_nums a _ _ _ _ _ _
  by_cases h2 : t.nIter > 1
  · simp only [if_pos h2, stepVecN]
    rw [mapM_nums .num .num (fun s => roiEnergy a t.roiRadiusPix t.nSubpixels t.probeRotVecDeg s xOffset yOffset) (fun s => roiEnergyN a.nums t.roiRadiusPix t.nSubpixels
      t.probeRotVecDeg s (.num xOffset) (.num yOffset)) _ hc, res_map_bind, res_bind_map]
    refine bind_congr fun c => ?_
    rw [lineArgmaxN_nums]
    exact sepLoopN_nums S nanFit _ _ hc _ _ _ _
  · simp only [if_neg h2]
    exact sepLoopN_nums S nanFit _ _ hc _ _ _ _

theorem denan_nums {K : Type} [Zero K] (a : Arr2 K) : a.nums.denan = a := rfl

theorem starLoopN_nums (S : Solver) (nanFit : Option PyExc) (cost : ℝ → ℝ → Res ℝ) (costN : Fl ℝ → Fl ℝ → Res (Fl ℝ))
    (hc : ∀ x y, costN (.num x) (.num y) = (cost x y).map .num) (nSteps : ℕ) (step : ℝ) (k : ℕ) (est : ℝ × ℝ) :
    starLoopN S nanFit costN nSteps step k (.num est.1, .num est.2) =
      (starLoop S cost nSteps step k est).map fun p => (.num p.1, .num p.2) := by
  classical
  induction k generalizing est with
  | zero => rfl
  | succ k ih =>
    rw [starLoopN, starLoop]
    simp only [stepVecN]
    have hg : ∀ xs ys : List ℝ, costGridN (xs.map .num) (ys.map .num) costN = (costGrid xs ys cost).map Arr2.nums := by
      intro xs ys
      unfold costGridN costGrid
      rw [mapM_nums (Fl.num : ℝ → Fl ℝ) (List.map (Fl.num : ℝ → Fl ℝ)) (fun y => xs.mapM fun x => cost x y)
        (fun y => (xs.map (Fl.num : ℝ → Fl ℝ)).mapM fun x => costN x y) ys
        (fun y => mapM_nums Fl.num Fl.num (fun x => cost x y) (fun x => costN x (.num y)) xs fun x => hc x y), res_map_bind, res_bind_map]
      cases h1 : ys.mapM fun y => xs.mapM fun x => cost x y with
      | error e => rfl
      | ok rows =>
        obtain ⟨l1, l2⟩ := mapM_all _ (fun row : List ℝ => row.length = xs.length) _ (fun y row hrow =>
          (mapM_all _ (fun _ => True) _ (fun _ _ _ => trivial) _ hrow).1) _ h1
        refine congrArg Except.ok ?_
        unfold Arr2.nums Arr2.map
        simp only
        have e1 : (ys.map (Fl.num : ℝ → Fl ℝ)).length = ys.length := List.length_map _
        have e2 : (xs.map (Fl.num : ℝ → Fl ℝ)).length = xs.length := List.length_map _
        have key : ∀ (n m : ℕ) (hn : n = ys.length) (hm : m = xs.length),
            (⟨n, m, fun i j => ((rows.map (List.map (Fl.num : ℝ → Fl ℝ))).getD i []).getD j .nan⟩ : Arr2 (Fl ℝ)) =
              ⟨ys.length, xs.length, fun i j => .num ((rows.getD i []).getD j 0)⟩ := by
          rintro n m rfl rfl
          congr 1
          funext i j
          have hi : (i : ℕ) < rows.length := by rw [l1]; exact i.2
          have hj : (j : ℕ) < (rows[(i : ℕ)]).length := by rw [l2 _ (List.getElem_mem hi)]; exact j.2
          have e0 : (rows.map (List.map (Fl.num : ℝ → Fl ℝ))).getD i [] = (rows[(i : ℕ)]).map .num := by
            rw [List.getD_eq_getElem _ _ (by simpa using hi), List.getElem_map]
          rw [e0, List.getD_eq_getElem _ _ (by simpa using hj), List.getElem_map, List.getD_eq_getElem _ _ hi, List.getD_eq_getElem _ _ hj]
        exact key _ _ e1 e2
    rw [hg, res_map_bind, res_bind_map]
    refine bind_congr fun c => ?_
    have : gridFitN S nanFit ((stepVec nSteps step est.1).map .num) ((stepVec nSteps step est.2).map .num) c.nums =
        (gridFit S (stepVec nSteps step est.1) (stepVec nSteps step est.2) c).map fun p => (.num p.1, .num p.2) := by
      unfold gridFitN
      rw [allNums_nums, allNums_nums]
      simp only
      rw [if_neg (nums_no_nan c), denan_nums]
    rw [this, res_map_bind, res_bind_map]
    exact bind_congr fun p => ih p

/-- **C113.** Without NaN pixels `calc_star_location_from_spots` is the function of the other claims about it. -/
theorem C113_star_numbers (S : Solver) (nanFit : Option PyExc) (a : Arr2 ℝ) (xGuess yGuess : ℝ) (t : StarTuning) :
    calcStarLocationN S nanFit a.nums xGuess yGuess t =
      (calcStarLocation S a xGuess yGuess t).map fun p => (.num p.1, .num p.2) := by
  unfold calcStarLocationN calcStarLocation
  by_cases h1 : t.sepPix ≤ 0 ∨ t.roiRadiusPix ≤ 0 ∨ t.nSubpixels ≤ 0 ∨ t.nSteps ≤ 0 ∨ t.stepSize ≤ 0 ∨ t.nIter ≤ 0
  · rw [if_pos h1, if_pos h1]; rfl
  rw [if_neg h1, if_neg h1]
  exact starLoopN_nums S nanFit
    (fun x y => roiEnergy a t.roiRadiusPix t.nSubpixels t.probeRotVecDeg t.sepPix (xGuess + x) (yGuess + y))
    (fun x y => roiEnergyN a.nums t.roiRadiusPix t.nSubpixels t.probeRotVecDeg (.num t.sepPix) (.num xGuess + x) (.num yGuess + y))
    (fun x y => roiEnergyN_nums a _ _ _ _ _ _) _ _ _ (0, 0)

/-! ### `ampthresh` -/

/-- **C113.** `ampthresh` refuses a map with a NaN pixel, and is the function of the other claims on a map of numbers. -/
theorem C113_ampthresh (m : Arr2 (Fl ℝ)) (h : HasNan m) (nBin : ℤ) : ampthreshN m nBin = .error .valueError := by
  unfold ampthreshN
  split_ifs <;> rfl

theorem C113_ampthresh_numbers (a : Arr2 ℝ) (nBin : ℤ) : ampthreshN a.nums nBin = ampthresh a nBin := by
  classical
  unfold ampthreshN
  rw [if_neg (nums_no_nan a), denan_nums]
  split_ifs with h
  · unfold ampthresh; rw [if_pos h]
  · rfl

/-! ### Concrete cases -/

example : quadrantEnergyBalanceN onAxisImage.nums 1 1 1 = .ok (.num 2, .num 0) :=
  C113_quadrants_numbers onAxisImage 1 1 1 2 0 C11_axis_counted_twice

theorem spotTuning_ok : SpotTuning.Valid ⟨3, 2, 10, 5, 1, 1, 2, 1⟩ 1 :=
  ⟨by norm_num, by norm_num, by norm_num, by norm_num, by norm_num, by norm_num, by norm_num, by norm_num, by norm_num⟩

example : calcOffsetFromSpotsN badFrame 30 0 0 ⟨3, 2, 10, 5, 1, 1, 2, 1⟩ 1 = .ok .nan :=
  C113_offset badFrame badFrame_nan (by decide) 30 0 0 _ 1 spotTuning_ok

example : calcBowtieOffsetsN badFrame 0 0 ⟨3, 30, 0, 2, 10, 5, 1, 1, 1, 1, 1, 1⟩ = .ok (.nan, .nan) :=
  C113_bowtie badFrame badFrame_nan (by decide) 0 0 _
    ⟨by norm_num, by norm_num, by norm_num, by norm_num, by norm_num, by norm_num, by norm_num, by norm_num⟩ (by norm_num) (by norm_num)

example (m : Arr2 (Fl ℝ)) (h : m = badFrame) : ampthreshN m 21 = .error .valueError := C113_ampthresh m (h ▸ badFrame_nan) 21

theorem starTuning_ok : StarTuning.Accepted ⟨3, 2, [0, 90], 10, 5, 1, 4⟩ :=
  ⟨by norm_num, by norm_num, by norm_num, by norm_num, by norm_num, by norm_num⟩

example (S : Solver) : calcSpotSeparationN S none badFrame 0 0 ⟨3, 2, [0, 90], 10, 5, 1, 4⟩ = .ok .nan ∧
    calcStarLocationN S none badFrame 0 0 ⟨3, 2, [0, 90], 10, 5, 1, 4⟩ = .ok (.nan, .nan) :=
  ⟨C113_separation_outcome S none badFrame badFrame_nan (by decide) 0 0 _ starTuning_ok,
    C113_star_outcome S none badFrame badFrame_nan (by decide) 0 0 _ starTuning_ok⟩

end Coralign.Props
