import Verif.Model.DarkHole
import Verif.Props.Annular
import Verif.Props.Pupil
import Verif.Props.FocalFit

/-!
# Property C46: dark-hole masks
-/

namespace Coralign.Props

open Coralign Coralign.Spec Finset

/-! ### Specification -/

/-- A dark-hole shape, with its centre at offset `(xo, yo)` from the centre pixel. -/
inductive Region where
  | rectangle (xo yo w h : ℝ)
  | annulus (xo yo rIn rOut : ℝ)
  | sector (xo yo rIn rOut opening clocking : ℝ)
  | bowtie (xo yo rIn rOut opening clocking : ℝ)

instance : Nonempty Region := ⟨.annulus 0 0 0 0⟩

/-- The set of points of the plane making up the region. -/
def Region.covers : Region → ℝ → ℝ → Prop
  | .rectangle xo yo w h, x, y => |x - xo| ≤ w / 2 ∧ |y - yo| ≤ h / 2
  | .annulus xo yo rIn rOut, x, y => rIn ^ 2 ≤ (x - xo) ^ 2 + (y - yo) ^ 2 ∧ (x - xo) ^ 2 + (y - yo) ^ 2 ≤ rOut ^ 2
  | .sector xo yo rIn rOut op cl, x, y => inSegment rIn rOut op cl (x - xo) (y - yo)
  | .bowtie xo yo rIn rOut op cl, x, y => inSegments 2 rIn rOut op cl (x - xo) (y - yo)

/-- Parameters that describe a region: positive sides, `0 ≤ rIn ≤ rOut`, positive opening. -/
def Region.Valid : Region → Prop
  | .rectangle _ _ w h => 0 < w ∧ 0 < h
  | .annulus _ _ rIn rOut => 0 ≤ rIn ∧ rIn ≤ rOut
  | .sector _ _ rIn rOut op _ | .bowtie _ _ rIn rOut op _ => 0 ≤ rIn ∧ rIn ≤ rOut ∧ 0 < op

/-- The apex of a sector or bowtie that reaches in to radius zero. -/
def Region.Apex : Region → ℝ → ℝ → Prop
  | .rectangle _ _ _ _, _, _ | .annulus _ _ _ _, _, _ => False
  | .sector xo yo rIn _ _ _, x, y | .bowtie xo yo rIn _ _ _, x, y => rIn = 0 ∧ x = xo ∧ y = yo

/-- The region an entry of the file describes, when all the keys it needs are there and the name is known. -/
def _root_.Coralign.ShapeSpec.Describes (s : ShapeSpec) : Region → Prop
  | .rectangle xo yo w h => s.xOffset = some xo ∧ s.yOffset = some yo ∧ s.shape = some "rectangle" ∧ s.width = some w ∧
      s.height = some h
  | .annulus xo yo ri ro => s.xOffset = some xo ∧ s.yOffset = some yo ∧ s.shape = some "annulus" ∧ s.radiusInner = some ri ∧
      s.radiusOuter = some ro
  | .sector xo yo ri ro op cl => s.xOffset = some xo ∧ s.yOffset = some yo ∧ s.shape = some "annular_sector" ∧
      s.radiusInner = some ri ∧ s.radiusOuter = some ro ∧ s.openingAngle = some op ∧ s.clocking = some cl
  | .bowtie xo yo ri ro op cl => s.xOffset = some xo ∧ s.yOffset = some yo ∧ s.shape = some "bowtie" ∧
      s.radiusInner = some ri ∧ s.radiusOuter = some ro ∧ s.openingAngle = some op ∧ s.clocking = some cl

/-! ### Single shapes -/

/-- `m` is an `nRows × nCols` boolean array whose pixel at `(k, l)` from the centre pixel is true exactly where `P l k`. -/
def IsMask (m : Arr2 Bool) (nRows nCols : ℕ) (P : ℝ → ℝ → Prop) : Prop :=
  m.nr = nRows ∧ m.nc = nCols ∧ ∀ k l : ℤ, Reaches nRows nCols k l → ∃ b, m.centered k l = some b ∧ (b = true ↔ P l k)

theorem dhArray_isMask (nr nc : ℕ) (xo yo : ℝ) (P : ℝ → ℝ → Prop) :
    IsMask (dhArray nr nc xo yo P) nr nc (fun x y => P (x - xo) (y - yo)) := by
  classical
  refine ⟨rfl, rfl, fun k l hr => ?_⟩
  unfold Arr2.centered
  unfold Reaches at hr
  refine ⟨_, Arr2.px_of_inB _ (by exact hr), ?_⟩
  have e1 := shapeAxis_px nr yo ⟨((nr : ℤ) / 2 + k).toNat, by omega⟩
  have e2 := shapeAxis_px nc xo ⟨((nc : ℤ) / 2 + l).toNat, by omega⟩
  have f1 : ((((nr : ℤ) / 2 + k).toNat : ℕ) : ℝ) = ((nr / 2 : ℕ) : ℝ) + k := by
    have : ((((nr : ℤ) / 2 + k).toNat : ℕ) : ℤ) = ((nr / 2 : ℕ) : ℤ) + k := by push_cast; omega
    have h' := congrArg (Int.cast : ℤ → ℝ) this
    rw [Int.cast_add, Int.cast_natCast, Int.cast_natCast] at h'
    exact h'
  have f2 : ((((nc : ℤ) / 2 + l).toNat : ℕ) : ℝ) = ((nc / 2 : ℕ) : ℝ) + l := by
    have : ((((nc : ℤ) / 2 + l).toNat : ℕ) : ℤ) = ((nc / 2 : ℕ) : ℤ) + l := by push_cast; omega
    have h' := congrArg (Int.cast : ℤ → ℝ) this
    rw [Int.cast_add, Int.cast_natCast, Int.cast_natCast] at h'
    exact h'
  have g1 : dhY nr yo ((nr : ℤ) / 2 + k).toNat = k - yo := by
    unfold dhY; rw [e1, f1]; ring
  have g2 : dhX nc xo ((nc : ℤ) / 2 + l).toNat = l - xo := by
    unfold dhX; rw [e2, f2]; ring
  change decide (P (dhX nc xo ((nc : ℤ) / 2 + l).toNat) (dhY nr yo ((nr : ℤ) / 2 + k).toNat)) = true ↔ P (l - xo) (k - yo)
  rw [g1, g2]
  exact decide_eq_true_iff

theorem IsMask.congr {m : Arr2 Bool} {nr nc : ℕ} {P Q : ℝ → ℝ → Prop} (h : IsMask m nr nc P)
    (hPQ : ∀ x y, P x y ↔ Q x y) : IsMask m nr nc Q := by
  obtain ⟨a, b, c⟩ := h
  refine ⟨a, b, fun k l hr => ?_⟩
  obtain ⟨v, hv, e⟩ := c k l hr
  exact ⟨v, hv, e.trans (hPQ _ _)⟩

theorem orPx_isMask {a b : Arr2 Bool} {nr nc : ℕ} {P Q : ℝ → ℝ → Prop} (ha : IsMask a nr nc P) (hb : IsMask b nr nc Q) :
    IsMask (a.orPx b) nr nc (fun x y => P x y ∨ Q x y) := by
  obtain ⟨a1, a2, a3⟩ := ha
  obtain ⟨b1, b2, b3⟩ := hb
  refine ⟨a1, a2, fun k l hr => ?_⟩
  obtain ⟨v, hv, ev⟩ := a3 k l hr
  obtain ⟨w, hw, ew⟩ := b3 k l hr
  refine ⟨v || w, ?_, by rw [Bool.or_eq_true, ev, ew]⟩
  obtain ⟨n, m, f⟩ := a
  obtain ⟨n', m', g⟩ := b
  simp only at a1 a2 b1 b2
  subst a1; subst a2; subst b1; subst b2
  unfold Arr2.centered at hv hw ⊢
  unfold Reaches at hr
  rw [Arr2.px_of_inB _ (by exact hr)] at hv hw
  rw [Arr2.px_of_inB _ (by unfold Arr2.orPx; exact hr)]
  simp only [Option.some.injEq] at hv hw ⊢
  unfold Arr2.orPx
  simp only
  rw [hv]
  congr 1
  have hr' : ((0 ≤ (n' : ℤ) / 2 + k ∧ (n' : ℤ) / 2 + k < n') ∧ (0 ≤ (m' : ℤ) / 2 + l ∧ (m' : ℤ) / 2 + l < m')) := hr
  have := Arr2.px_val (⟨n', m', g⟩ : Arr2 Bool) ⟨((n' : ℤ) / 2 + k).toNat, by simp only; omega⟩
    ⟨((m' : ℤ) / 2 + l).toNat, by simp only; omega⟩
  simp only at this
  rw [this, Option.getD_some, hw]

theorem dhR_le (x y r : ℝ) (hr : 0 ≤ r) : dhR x y ≤ r ↔ x ^ 2 + y ^ 2 ≤ r ^ 2 := by
  unfold dhR
  rw [Real.sqrt_le_left hr, sq, sq, sq]

theorem dhR_ge (x y r : ℝ) (hr : 0 ≤ r) : dhR x y ≥ r ↔ r ^ 2 ≤ x ^ 2 + y ^ 2 := by
  unfold dhR
  rw [ge_iff_le, Real.le_sqrt hr, sq x, sq y]
  exact add_nonneg (mul_self_nonneg _) (mul_self_nonneg _)

/-- What the code tests for a sector. -/
def sectorTest (rIn rOut op cl x y : ℝ) : Prop :=
  (dhR x y ≤ rOut ∧ rIn ≤ dhR x y) ∧ |wrapAngle (arctan2 y x - cl * Real.pi / 180)| ≤ op * Real.pi / 180 / 2

theorem sectorTest_iff (rIn rOut op cl x y : ℝ) (hIn : 0 ≤ rIn) (h : ¬ (rIn = 0 ∧ x = 0 ∧ y = 0)) :
    sectorTest rIn rOut op cl x y ↔ inSegment rIn rOut op cl x y := by
  obtain ⟨hx, hy⟩ := polar x y
  have h0 : 0 < rIn ∨ 0 < Real.sqrt (x ^ 2 + y ^ 2) := by
    rcases hIn.lt_or_eq with a | a
    · exact Or.inl a
    · right
      apply Real.sqrt_pos.mpr
      by_contra hc
      apply h
      refine ⟨a.symm, ?_, ?_⟩ <;> nlinarith [sq_nonneg x, sq_nonneg y]
  have hs := segment_iff_pos rIn rOut op cl (Real.sqrt (x ^ 2 + y ^ 2)) (arctan2 y x) hIn h0 (Real.sqrt_nonneg _)
  rw [← hx, ← hy] at hs
  rw [hs]
  unfold sectorTest dhR
  rw [sq, sq]

theorem sectorTest_opposite (rIn rOut op cl x y : ℝ) (hIn : 0 ≤ rIn) (h : ¬ (rIn = 0 ∧ x = 0 ∧ y = 0)) :
    sectorTest rIn rOut op (cl + 180) x y ↔ inSegment rIn rOut op cl (-x) (-y) := by
  obtain ⟨hx, hy⟩ := polar x y
  have h0 : 0 < rIn ∨ 0 < Real.sqrt (x ^ 2 + y ^ 2) := by
    rcases hIn.lt_or_eq with a | a
    · exact Or.inl a
    · right
      apply Real.sqrt_pos.mpr
      by_contra hc
      apply h
      refine ⟨a.symm, ?_, ?_⟩ <;> nlinarith [sq_nonneg x, sq_nonneg y]
  have hs := segment_iff_pos rIn rOut op cl (Real.sqrt (x ^ 2 + y ^ 2)) (arctan2 y x - Real.pi) hIn h0 (Real.sqrt_nonneg _)
  rw [Real.cos_sub_pi, Real.sin_sub_pi, mul_neg, mul_neg, ← hx, ← hy] at hs
  rw [hs]
  unfold sectorTest dhR
  rw [sq, sq, show arctan2 y x - (cl + 180) * Real.pi / 180 = arctan2 y x - Real.pi - cl * Real.pi / 180 by ring]

theorem genRectangle_mask (nr nc : ℕ) (hr : 1 ≤ nr) (hc : 1 ≤ nc) (xo yo w h : ℝ) (hw : 0 < w) (hh : 0 < h) :
    ∃ m, genRectangle nr nc xo yo w h = .ok m ∧ IsMask m nr nc ((Region.rectangle xo yo w h).covers) := by
  refine ⟨_, ?_, dhArray_isMask nr nc xo yo (fun x y => |x| ≤ w / 2 ∧ |y| ≤ h / 2)⟩
  unfold genRectangle dhShapeOk
  rw [if_neg (by push Not; omega), if_neg (by push Not; exact ⟨hw, hh⟩)]

theorem genAnnulus_mask (nr nc : ℕ) (hr : 1 ≤ nr) (hc : 1 ≤ nc) (xo yo ri ro : ℝ) (h1 : 0 ≤ ri) (h2 : ri ≤ ro) :
    ∃ m, genAnnulus nr nc xo yo ri ro = .ok m ∧ IsMask m nr nc ((Region.annulus xo yo ri ro).covers) := by
  refine ⟨_, ?_, (dhArray_isMask nr nc xo yo (fun x y => dhR x y ≥ ri ∧ dhR x y ≤ ro)).congr fun x y => ?_⟩
  · unfold genAnnulus dhShapeOk
    rw [if_neg (by push Not; omega), if_neg (by push Not; exact ⟨h1, by linarith⟩), if_neg (by linarith)]
  · unfold Region.covers
    rw [dhR_ge _ _ _ h1, dhR_le _ _ _ (by linarith)]

theorem genSector_mask (nr nc : ℕ) (hr : 1 ≤ nr) (hc : 1 ≤ nc) (xo yo ri ro op cl : ℝ) (h1 : 0 ≤ ri) (h2 : ri ≤ ro)
    (h3 : 0 < op) :
    ∃ m, genAnnularSector nr nc xo yo ri ro op cl = .ok m ∧
      IsMask m nr nc (fun x y => sectorTest ri ro op cl (x - xo) (y - yo)) := by
  refine ⟨_, ?_, (dhArray_isMask nr nc xo yo (fun x y => ((dhR x y ≥ ri ∧ dhR x y ≤ ro) ∧
      wrapAngle (arctan2 y x - cl * Real.pi / 180) ≥ -(op * Real.pi / 180) / 2) ∧
      wrapAngle (arctan2 y x - cl * Real.pi / 180) ≤ op * Real.pi / 180 / 2)).congr fun x y => ?_⟩
  · unfold genAnnularSector dhShapeOk
    rw [if_neg (by push Not; omega), if_neg (by push Not; exact ⟨h1, by linarith⟩), if_neg (by linarith),
      if_neg (by linarith)]
  · unfold sectorTest
    rw [abs_le, neg_div]
    tauto

theorem genBowtie_mask (nr nc : ℕ) (hr : 1 ≤ nr) (hc : 1 ≤ nc) (xo yo ri ro op cl : ℝ) (h1 : 0 ≤ ri) (h2 : ri ≤ ro)
    (h3 : 0 < op) :
    ∃ m, genBowtie nr nc xo yo ri ro op cl = .ok m ∧
      IsMask m nr nc (fun x y => sectorTest ri ro op cl (x - xo) (y - yo) ∨ sectorTest ri ro op (cl + 180) (x - xo) (y - yo)) := by
  obtain ⟨a, ea, ha⟩ := genSector_mask nr nc hr hc xo yo ri ro op cl h1 h2 h3
  obtain ⟨b, eb, hb⟩ := genSector_mask nr nc hr hc xo yo ri ro op (cl + 180) h1 h2 h3
  refine ⟨a.orPx b, ?_, orPx_isMask ha hb⟩
  unfold genBowtie
  rw [ea, eb]
  rfl

/-! ### What one entry of the file produces -/

/-- What the code tests for a region. -/
def Region.test : Region → ℝ → ℝ → Prop
  | .sector xo yo ri ro op cl, x, y => sectorTest ri ro op cl (x - xo) (y - yo)
  | .bowtie xo yo ri ro op cl, x, y =>
      sectorTest ri ro op cl (x - xo) (y - yo) ∨ sectorTest ri ro op (cl + 180) (x - xo) (y - yo)
  | r, x, y => r.covers x y

theorem Region.test_iff (r : Region) (hv : r.Valid) (x y : ℝ) (h : ¬ r.Apex x y) : r.test x y ↔ r.covers x y := by
  cases r with
  | rectangle => rfl
  | annulus => rfl
  | sector xo yo ri ro op cl =>
    unfold Region.test Region.covers
    apply sectorTest_iff _ _ _ _ _ _ hv.1
    rintro ⟨a, b, c⟩
    exact h ⟨a, by linarith, by linarith⟩
  | bowtie xo yo ri ro op cl =>
    have h' : ¬ (ri = 0 ∧ x - xo = 0 ∧ y - yo = 0) := by
      rintro ⟨a, b, c⟩
      exact h ⟨a, by linarith, by linarith⟩
    change (sectorTest _ _ _ _ _ _ ∨ sectorTest _ _ _ _ _ _) ↔ (inSegment _ _ _ _ _ _ ∨ 2 = 2 ∧ inSegment _ _ _ _ _ _)
    rw [sectorTest_iff _ _ _ _ _ _ hv.1 h', sectorTest_opposite _ _ _ _ _ _ hv.1 h']
    simp

theorem shapeMask_ok (nr nc : ℕ) (hr : 1 ≤ nr) (hc : 1 ≤ nc) (s : ShapeSpec) (r : Region) (hd : s.Describes r) (hv : r.Valid) :
    ∃ m, shapeMask nr nc s = .ok m ∧ IsMask m nr nc r.test := by
  cases r with
  | rectangle xo yo w h =>
    obtain ⟨a, b, c, d, e⟩ := hd
    obtain ⟨m, em, hm⟩ := genRectangle_mask nr nc hr hc xo yo w h hv.1 hv.2
    refine ⟨m, ?_, hm⟩
    unfold shapeMask lookupKey
    rw [a, b, c, d, e]
    simpa [bind, Except.bind] using em
  | annulus xo yo ri ro =>
    obtain ⟨a, b, c, d, e⟩ := hd
    obtain ⟨m, em, hm⟩ := genAnnulus_mask nr nc hr hc xo yo ri ro hv.1 hv.2
    refine ⟨m, ?_, hm⟩
    unfold shapeMask lookupKey
    rw [a, b, c, d, e]
    simpa [bind, Except.bind] using em
  | sector xo yo ri ro op cl =>
    obtain ⟨a, b, c, d, e, f, g⟩ := hd
    obtain ⟨m, em, hm⟩ := genSector_mask nr nc hr hc xo yo ri ro op cl hv.1 hv.2.1 hv.2.2
    refine ⟨m, ?_, hm⟩
    unfold shapeMask lookupKey
    rw [a, b, c, d, e, f, g]
    simpa [bind, Except.bind] using em
  | bowtie xo yo ri ro op cl =>
    obtain ⟨a, b, c, d, e, f, g⟩ := hd
    obtain ⟨m, em, hm⟩ := genBowtie_mask nr nc hr hc xo yo ri ro op cl hv.1 hv.2.1 hv.2.2
    refine ⟨m, ?_, hm⟩
    unfold shapeMask lookupKey
    rw [a, b, c, d, e, f, g]
    simpa [bind, Except.bind] using em

theorem shapeMask_ok_iff (nr nc : ℕ) (hr : 1 ≤ nr) (hc : 1 ≤ nc) (s : ShapeSpec) :
    (∃ m, shapeMask nr nc s = .ok m) ↔ ∃ r : Region, s.Describes r ∧ r.Valid := by
  constructor
  · rintro ⟨m, hm⟩
    obtain ⟨xo, yo, nm, w, h, ri, ro, op, cl⟩ := s
    have hs : dhShapeOk nr nc := by unfold dhShapeOk; omega
    cases xo with
    | none => simp [shapeMask, lookupKey, bind, Except.bind] at hm
    | some xo =>
    cases yo with
    | none => simp [shapeMask, lookupKey, bind, Except.bind] at hm
    | some yo =>
    cases nm with
    | none => simp [shapeMask, lookupKey, bind, Except.bind] at hm
    | some nm =>
    simp only [shapeMask, lookupKey, bind, Except.bind] at hm
    by_cases h1 : nm = "rectangle"
    · rw [if_pos h1] at hm
      cases w with
      | none => simp at hm
      | some w =>
      cases h with
      | none => simp at hm
      | some h =>
      simp only [genRectangle, hs, not_true_eq_false, if_false] at hm
      refine ⟨.rectangle xo yo w h, ⟨rfl, rfl, by rw [h1], rfl, rfl⟩, ?_⟩
      split_ifs at hm with hbad
      push Not at hbad
      exact hbad
    rw [if_neg h1] at hm
    by_cases h2 : nm = "annulus"
    · rw [if_pos h2] at hm
      cases ri with
      | none => simp at hm
      | some ri =>
      cases ro with
      | none => simp at hm
      | some ro =>
      simp only [genAnnulus, hs, not_true_eq_false, if_false] at hm
      refine ⟨.annulus xo yo ri ro, ⟨rfl, rfl, by rw [h2], rfl, rfl⟩, ?_⟩
      split_ifs at hm with hbad hbad2
      push Not at hbad hbad2
      exact ⟨hbad.1, hbad2⟩
    rw [if_neg h2] at hm
    have sec : ∀ ri ro op cl : ℝ, ∀ m, genAnnularSector nr nc xo yo ri ro op cl = .ok m → 0 ≤ ri ∧ ri ≤ ro ∧ 0 < op := by
      intro ri ro op cl m hm
      simp only [genAnnularSector, hs, not_true_eq_false, if_false] at hm
      split_ifs at hm with hbad hbad2 hbad3
      push Not at hbad hbad2 hbad3
      exact ⟨hbad.1, hbad2, hbad3⟩
    by_cases h3 : nm = "annular_sector"
    · rw [if_pos h3] at hm
      cases ri with
      | none => simp at hm
      | some ri =>
      cases ro with
      | none => simp at hm
      | some ro =>
      cases op with
      | none => simp at hm
      | some op =>
      cases cl with
      | none => simp at hm
      | some cl =>
      exact ⟨.sector xo yo ri ro op cl, ⟨rfl, rfl, by rw [h3], rfl, rfl, rfl, rfl⟩, sec _ _ _ _ _ hm⟩
    rw [if_neg h3] at hm
    by_cases h4 : nm = "bowtie"
    · rw [if_pos h4] at hm
      cases ri with
      | none => simp at hm
      | some ri =>
      cases ro with
      | none => simp at hm
      | some ro =>
      cases op with
      | none => simp at hm
      | some op =>
      cases cl with
      | none => simp at hm
      | some cl =>
      refine ⟨.bowtie xo yo ri ro op cl, ⟨rfl, rfl, by rw [h4], rfl, rfl, rfl, rfl⟩, ?_⟩
      simp only [genBowtie, bind, Except.bind] at hm
      cases hg : genAnnularSector nr nc xo yo ri ro op cl with
      | error e => rw [hg] at hm; simp at hm
      | ok a => exact sec _ _ _ _ _ hg
    rw [if_neg h4] at hm
    simp at hm
  · rintro ⟨r, hd, hv⟩
    obtain ⟨m, hm, -⟩ := shapeMask_ok nr nc hr hc s r hd hv
    exact ⟨m, hm⟩

/-! ### C46 -/

theorem maskOr_bool {a : Arr2 Bool} {nr nc : ℕ} {P Q : ℝ → ℝ → Prop} (ha : IsMask a nr nc P) (m : NpMask)
    (hm : match m with | .float f => f = Arr2.full nr nc 0 ∧ ∀ x y, ¬ Q x y | .bool b => IsMask b nr nc Q) :
    ∃ b, maskOr a m = .bool b ∧ IsMask b nr nc (fun x y => P x y ∨ Q x y) := by
  cases m with
  | bool b => exact ⟨_, rfl, orPx_isMask ha hm⟩
  | float f =>
    refine ⟨_, rfl, orPx_isMask ha ?_⟩
    obtain ⟨rfl, hQ⟩ := hm
    refine ⟨rfl, rfl, fun k l hr => ⟨false, ?_, by simp [hQ]⟩⟩
    unfold Arr2.centered
    unfold Reaches at hr
    rw [Arr2.px_of_inB _ (by exact hr)]
    simp [Arr2.map, Arr2.full]

theorem fold_mask (nr nc : ℕ) (hr : 1 ≤ nr) (hc : 1 ≤ nc) (l : List (ShapeSpec × Region))
    (hl : ∀ p ∈ l, p.1.Describes p.2 ∧ p.2.Valid) (Q : ℝ → ℝ → Prop) (m : NpMask)
    (hm : match m with | .float f => f = Arr2.full nr nc 0 ∧ ∀ x y, ¬ Q x y | .bool b => IsMask b nr nc Q) :
    ∃ m', (l.map Prod.fst).foldlM (fun mask s => do
        let a ← shapeMask nr nc s
        (.ok (maskOr a mask) : Res NpMask)) m = .ok m' ∧
      (if l = [] then m' = m else ∃ b, m' = .bool b ∧ IsMask b nr nc (fun x y => (∃ p ∈ l, p.2.test x y) ∨ Q x y)) := by
  induction l generalizing m Q with
  | nil => exact ⟨m, rfl, by simp⟩
  | cons p l ih =>
    obtain ⟨a, ea, ha⟩ := shapeMask_ok nr nc hr hc p.1 p.2 (hl p (by simp)).1 (hl p (by simp)).2
    obtain ⟨b, eb, hb⟩ := maskOr_bool ha m hm
    obtain ⟨m', em', hm'⟩ := ih (fun q hq => hl q (by simp [hq])) (fun x y => p.2.test x y ∨ Q x y) (.bool b) hb
    refine ⟨m', ?_, ?_⟩
    · rw [List.map_cons, List.foldlM_cons, ea]
      simp only [res_ok_bind]
      rw [eb]
      exact em'
    · rw [if_neg (by simp)]
      split_ifs at hm' with hnil
      · subst hnil
        refine ⟨b, hm', hb.congr fun x y => ?_⟩
        simp
      · obtain ⟨b', rfl, hb'⟩ := hm'
        refine ⟨b', rfl, hb'.congr fun x y => ?_⟩
        simp only [List.mem_cons, exists_eq_or_imp]
        rw [or_left_comm, or_assoc]

/-- **C46.** A file with at least one shape, all of them describing valid regions, gives a boolean array of the requested
size that is true exactly at the pixels covered by at least one region.  At the apex of a sector or bowtie of inner radius
zero the two may differ, see `C46_apex_depends_on_clocking`. -/
theorem C46_union_partial (nr nc : ℕ) (hr : 1 ≤ nr) (hc : 1 ≤ nc) (l : List (ShapeSpec × Region)) (hne : l ≠ [])
    (hl : ∀ p ∈ l, p.1.Describes p.2 ∧ p.2.Valid) :
    ∃ b, genDarkHole nr nc (l.map Prod.fst) = .ok (.bool b) ∧ b.nr = nr ∧ b.nc = nc ∧
      ∀ k j : ℤ, Reaches nr nc k j → (∀ p ∈ l, ¬ p.2.Apex j k) →
        ∃ v, b.centered k j = some v ∧ (v = true ↔ ∃ p ∈ l, p.2.covers j k) := by
  obtain ⟨m', em, hm⟩ := fold_mask nr nc hr hc l hl (fun _ _ => False) (.float (Arr2.full nr nc 0)) ⟨rfl, fun _ _ h => h⟩
  rw [if_neg hne] at hm
  obtain ⟨b, rfl, hb⟩ := hm
  refine ⟨b, ?_, hb.1, hb.2.1, fun k j hkj hap => ?_⟩
  · unfold genDarkHole
    rw [if_neg (by omega)]
    exact em
  · obtain ⟨v, hv, ev⟩ := hb.2.2 k j hkj
    refine ⟨v, hv, ev.trans ?_⟩
    simp only [or_false]
    constructor
    · rintro ⟨p, hp, ht⟩
      exact ⟨p, hp, (p.2.test_iff (hl p hp).2 _ _ (hap p hp)).mp ht⟩
    · rintro ⟨p, hp, ht⟩
      exact ⟨p, hp, (p.2.test_iff (hl p hp).2 _ _ (hap p hp)).mpr ht⟩

/-- **C46.** The call succeeds exactly when both sizes are positive and every entry describes a valid region. -/
theorem C46_accepts_iff (nRows nCols : ℤ) (l : List ShapeSpec) :
    (∃ m, genDarkHole nRows nCols l = .ok m) ↔
      0 < nRows ∧ 0 < nCols ∧ ∀ s ∈ l, ∃ r : Region, s.Describes r ∧ r.Valid := by
  by_cases hsz : nRows ≤ 0 ∨ nCols ≤ 0
  · unfold genDarkHole
    rw [if_pos hsz]
    simp only [reduceCtorEq, exists_false, false_iff]
    rintro ⟨a, b, -⟩
    omega
  · push Not at hsz
    obtain ⟨nr, rfl⟩ := Int.eq_ofNat_of_zero_le hsz.1.le
    obtain ⟨nc, rfl⟩ := Int.eq_ofNat_of_zero_le hsz.2.le
    have hr : 1 ≤ nr := by omega
    have hc : 1 ≤ nc := by omega
    constructor
    · rintro ⟨m, hm⟩
      refine ⟨hsz.1, hsz.2, ?_⟩
      unfold genDarkHole at hm
      rw [if_neg (by omega)] at hm
      generalize (NpMask.float _) = z at hm
      induction l generalizing z with
      | nil => simp
      | cons s l ih =>
        rw [List.foldlM_cons] at hm
        cases hs : shapeMask nr nc s with
        | error e => rw [hs] at hm; simp [bind, Except.bind] at hm
        | ok a =>
          rw [hs] at hm
          simp only [res_ok_bind] at hm
          intro s' hs'
          rcases List.mem_cons.mp hs' with rfl | h'
          · exact (shapeMask_ok_iff nr nc hr hc s').mp ⟨a, hs⟩
          · exact ih _ hm s' h'
    · rintro ⟨-, -, hl⟩
      choose! f hf using hl
      have := fold_mask nr nc hr hc (l.map fun s => (s, f s)) (by
        intro p hp
        obtain ⟨s, hs, rfl⟩ := List.mem_map.mp hp
        exact hf s hs) (fun _ _ => False) (.float (Arr2.full nr nc 0)) ⟨rfl, fun _ _ h => h⟩
      obtain ⟨m', em, -⟩ := this
      rw [List.map_map] at em
      simp only [Function.comp_def, List.map_id'] at em
      refine ⟨m', ?_⟩
      unfold genDarkHole
      rw [if_neg (by omega)]
      exact em

theorem isMask_ext {a b : Arr2 Bool} {nr nc : ℕ} {P : ℝ → ℝ → Prop} (ha : IsMask a nr nc P) (hb : IsMask b nr nc P) : a = b := by
  obtain ⟨a1, a2, a3⟩ := ha
  obtain ⟨b1, b2, b3⟩ := hb
  apply Arr2.ext_px (by rw [a1, b1]) (by rw [a2, b2])
  intro i j _ _ _ _
  by_cases h : (0 ≤ i ∧ i < nr) ∧ (0 ≤ j ∧ j < nc)
  · have hre : Reaches nr nc (i - (nr : ℤ) / 2) (j - (nc : ℤ) / 2) := by unfold Reaches; omega
    obtain ⟨v, hv, ev⟩ := a3 _ _ hre
    obtain ⟨w, hw, ew⟩ := b3 _ _ hre
    unfold Arr2.centered at hv hw
    rw [a1, a2, add_sub_cancel, add_sub_cancel] at hv
    rw [b1, b2, add_sub_cancel, add_sub_cancel] at hw
    rw [hv, hw]
    congr 1
    exact Bool.eq_iff_iff.mpr (ev.trans ew.symm)
  · rw [Arr2.px_of_not_inB a (by rw [a1, a2]; exact h), Arr2.px_of_not_inB b (by rw [b1, b2]; exact h)]

/-- **C46.** The order of the shapes in the file does not matter. -/
theorem C46_order_irrelevant (nRows nCols : ℤ) (l l' : List ShapeSpec) (h : l.Perm l') (m : NpMask)
    (hm : genDarkHole nRows nCols l = .ok m) : genDarkHole nRows nCols l' = .ok m := by
  obtain ⟨h1, h2, h3⟩ := (C46_accepts_iff nRows nCols l).mp ⟨m, hm⟩
  obtain ⟨nr, rfl⟩ := Int.eq_ofNat_of_zero_le h1.le
  obtain ⟨nc, rfl⟩ := Int.eq_ofNat_of_zero_le h2.le
  have hr : 1 ≤ nr := by omega
  have hc : 1 ≤ nc := by omega
  choose! f hf using h3
  have key : ∀ l0 : List ShapeSpec, (∀ s ∈ l0, s ∈ l) → l0 ≠ [] → ∃ b, genDarkHole nr nc l0 = .ok (.bool b) ∧
      IsMask b nr nc (fun x y => ∃ s ∈ l0, (f s).test x y) := by
    intro l0 hsub hne
    obtain ⟨m', em, hm'⟩ := fold_mask nr nc hr hc (l0.map fun s => (s, f s)) (by
        intro p hp
        obtain ⟨s, hs, rfl⟩ := List.mem_map.mp hp
        exact hf s (hsub s hs)) (fun _ _ => False) (.float (Arr2.full nr nc 0)) ⟨rfl, fun _ _ h => h⟩
    rw [if_neg (by simpa using hne)] at hm'
    obtain ⟨b, rfl, hb⟩ := hm'
    refine ⟨b, ?_, hb.congr fun x y => by simp⟩
    rw [List.map_map] at em
    simp only [Function.comp_def, List.map_id'] at em
    unfold genDarkHole
    rw [if_neg (by omega)]
    exact em
  by_cases hne : l = []
  · subst hne
    rw [List.nil_perm.mp h]
    exact hm
  · have hne' : l' ≠ [] := by
      rintro rfl
      exact hne (List.perm_nil.mp h)
    obtain ⟨b, eb, hb⟩ := key l (fun s hs => hs) hne
    obtain ⟨b', eb', hb'⟩ := key l' (fun s hs => h.mem_iff.mpr hs) hne'
    rw [hm] at eb
    injection eb with eb
    rw [eb', eb]
    congr 2
    exact isMask_ext hb' (hb.congr fun x y => by simp only [h.mem_iff])

/-- **C46.** A file whose `shapes` is empty yields an array of floating-point zeros, not a boolean array. -/
theorem C46_empty_is_float (nr nc : ℕ) (hr : 1 ≤ nr) (hc : 1 ≤ nc) :
    genDarkHole nr nc [] = .ok (.float (Arr2.full nr nc 0)) := by
  unfold genDarkHole
  rw [if_neg (by omega)]
  rfl

/-- **C46.** An opening of 180 degrees or more makes a bowtie an annulus. -/
theorem C46_bowtie_is_annulus (nr nc : ℕ) (hr : 1 ≤ nr) (hc : 1 ≤ nc) (xo yo ri ro op cl : ℝ) (h1 : 0 ≤ ri) (h2 : ri ≤ ro)
    (h3 : 180 ≤ op) : genBowtie nr nc xo yo ri ro op cl = genAnnulus nr nc xo yo ri ro := by
  obtain ⟨a, ea, ha⟩ := genBowtie_mask nr nc hr hc xo yo ri ro op cl h1 h2 (by linarith)
  obtain ⟨b, eb, hb⟩ := genAnnulus_mask nr nc hr hc xo yo ri ro h1 h2
  rw [ea, eb]
  congr 1
  refine isMask_ext ha (hb.congr fun x y => ?_)
  change (ri ^ 2 ≤ (x - xo) ^ 2 + (y - yo) ^ 2 ∧ (x - xo) ^ 2 + (y - yo) ^ 2 ≤ ro ^ 2) ↔ _
  rw [← dhR_ge _ _ _ h1, ← dhR_le _ _ _ (by linarith)]
  have hpi := Real.pi_pos
  have hop : Real.pi / 2 ≤ op * Real.pi / 180 / 2 := by nlinarith
  have hcov : |wrapAngle (arctan2 (y - yo) (x - xo) - cl * Real.pi / 180)| ≤ op * Real.pi / 180 / 2 ∨
      |wrapAngle (arctan2 (y - yo) (x - xo) - (cl + 180) * Real.pi / 180)| ≤ op * Real.pi / 180 / 2 := by
    rw [show arctan2 (y - yo) (x - xo) - (cl + 180) * Real.pi / 180 =
      arctan2 (y - yo) (x - xo) - cl * Real.pi / 180 - Real.pi by ring]
    generalize arctan2 (y - yo) (x - xo) - cl * Real.pi / 180 = s
    by_contra hcon
    push Not at hcon
    obtain ⟨k1, k2⟩ := hcon
    have e1 : Real.cos (wrapAngle s) < 0 := by
      obtain ⟨w1, w2⟩ := wrap_range s
      rcases lt_abs.mp k1 with a | a
      · exact Real.cos_neg_of_pi_div_two_lt_of_lt (by linarith) (by linarith)
      · rw [← Real.cos_neg]; exact Real.cos_neg_of_pi_div_two_lt_of_lt (by linarith) (by linarith)
    have e2 : Real.cos (wrapAngle (s - Real.pi)) < 0 := by
      obtain ⟨w1, w2⟩ := wrap_range (s - Real.pi)
      rcases lt_abs.mp k2 with a | a
      · exact Real.cos_neg_of_pi_div_two_lt_of_lt (by linarith) (by linarith)
      · rw [← Real.cos_neg]; exact Real.cos_neg_of_pi_div_two_lt_of_lt (by linarith) (by linarith)
    rw [(wrap_cos_sin _).1] at e1 e2
    rw [Real.cos_sub_pi] at e2
    linarith
  unfold sectorTest
  constructor
  · rintro ⟨a, b⟩
    rcases hcov with hh | hh
    · exact Or.inl ⟨⟨b, a⟩, hh⟩
    · exact Or.inr ⟨⟨b, a⟩, hh⟩
  · rintro (⟨⟨a, b⟩, -⟩ | ⟨⟨a, b⟩, -⟩) <;> exact ⟨b, a⟩

theorem wrapAngle_turn (s : ℝ) : wrapAngle (s - 2 * Real.pi) = wrapAngle s := by
  unfold wrapAngle
  congr 1
  rw [show (((s - 2 * Real.pi : ℝ) : ℂ) * Complex.I) = s * Complex.I - 2 * Real.pi * Complex.I by push_cast; ring,
    Complex.exp_sub, Complex.exp_two_pi_mul_I, div_one]

/-- **C46.** A full turn of the clocking changes nothing, for sectors and bowties (valid or not). -/
theorem C46_clocking_period (nRows nCols : ℤ) (xo yo ri ro op cl : ℝ) :
    genAnnularSector nRows nCols xo yo ri ro op (cl + 360) = genAnnularSector nRows nCols xo yo ri ro op cl ∧
      genBowtie nRows nCols xo yo ri ro op (cl + 360) = genBowtie nRows nCols xo yo ri ro op cl := by
  have h : ∀ c : ℝ, genAnnularSector nRows nCols xo yo ri ro op (c + 360) = genAnnularSector nRows nCols xo yo ri ro op c := by
    intro c
    unfold genAnnularSector
    have e : ∀ a : ℝ, wrapAngle (a - (c + 360) * Real.pi / 180) = wrapAngle (a - c * Real.pi / 180) := by
      intro a
      rw [← wrapAngle_turn (a - c * Real.pi / 180)]
      congr 1; ring
    simp only [e]
  refine ⟨h cl, ?_⟩
  unfold genBowtie
  rw [h cl, show cl + 360 + 180 = cl + 180 + 360 by ring, h (cl + 180)]

/-- **C46.** Half a turn of the clocking leaves a bowtie as it is. -/
theorem C46_bowtie_half_turn_clocking (nr nc : ℕ) (hr : 1 ≤ nr) (hc : 1 ≤ nc) (xo yo ri ro op cl : ℝ) (h1 : 0 ≤ ri)
    (h2 : ri ≤ ro) (h3 : 0 < op) : genBowtie nr nc xo yo ri ro op (cl + 180) = genBowtie nr nc xo yo ri ro op cl := by
  obtain ⟨a, ea, ha⟩ := genBowtie_mask nr nc hr hc xo yo ri ro op (cl + 180) h1 h2 h3
  obtain ⟨b, eb, hb⟩ := genBowtie_mask nr nc hr hc xo yo ri ro op cl h1 h2 h3
  rw [ea, eb]
  congr 1
  refine isMask_ext ha (hb.congr fun x y => ?_)
  have e : sectorTest ri ro op (cl + 180 + 180) (x - xo) (y - yo) ↔ sectorTest ri ro op cl (x - xo) (y - yo) := by
    unfold sectorTest
    rw [show arctan2 (y - yo) (x - xo) - (cl + 180 + 180) * Real.pi / 180 =
      arctan2 (y - yo) (x - xo) - cl * Real.pi / 180 - 2 * Real.pi by ring, wrapAngle_turn]
  rw [e]
  tauto

/-- **C46.** A bowtie is invariant under a half turn about its centre: opposite pixels have the same value. -/
theorem C46_bowtie_point_symmetric (nr nc : ℕ) (hr : 1 ≤ nr) (hc : 1 ≤ nc) (xo yo ri ro op cl : ℝ) (h1 : 0 ≤ ri)
    (h2 : ri ≤ ro) (h3 : 0 < op) (k l k' l' : ℤ) (hkl : Reaches nr nc k l) (hkl' : Reaches nr nc k' l')
    (hx : (l : ℝ) - xo = -((l' : ℝ) - xo)) (hy : (k : ℝ) - yo = -((k' : ℝ) - yo)) :
    ∃ b, genBowtie nr nc xo yo ri ro op cl = .ok b ∧ b.centered k l = b.centered k' l' := by
  obtain ⟨b, eb, hb⟩ := genBowtie_mask nr nc hr hc xo yo ri ro op cl h1 h2 h3
  refine ⟨b, eb, ?_⟩
  obtain ⟨v, hv, ev⟩ := hb.2.2 k l hkl
  obtain ⟨w, hw, ew⟩ := hb.2.2 k' l' hkl'
  simp only at ev ew
  rw [hv, hw]
  congr 1
  by_cases h0 : (l : ℝ) - xo = 0 ∧ (k : ℝ) - yo = 0
  · have e1 : (l' : ℝ) - xo = (l : ℝ) - xo := by linarith [h0.1]
    have e2 : (k' : ℝ) - yo = (k : ℝ) - yo := by linarith [h0.2]
    rw [e1, e2] at ew
    exact Bool.eq_iff_iff.mpr (ev.trans ew.symm)
  · have n1 : ¬ (ri = 0 ∧ (l : ℝ) - xo = 0 ∧ (k : ℝ) - yo = 0) := fun h => h0 ⟨h.2.1, h.2.2⟩
    have n2 : ¬ (ri = 0 ∧ (l' : ℝ) - xo = 0 ∧ (k' : ℝ) - yo = 0) := by
      rintro ⟨-, a, b⟩
      apply h0
      rw [hx, hy, a, b]; simp
    rw [sectorTest_iff _ _ _ _ _ _ h1 n1, sectorTest_opposite _ _ _ _ _ _ h1 n1, hx, hy, neg_neg, neg_neg] at ev
    rw [sectorTest_iff _ _ _ _ _ _ h1 n2, sectorTest_opposite _ _ _ _ _ _ h1 n2] at ew
    exact Bool.eq_iff_iff.mpr (ev.trans (or_comm.trans ew.symm))

/-- **C46, limit.** The mask is not exactly the union of the regions: the apex of a sector with inner radius zero belongs to
the region whatever its clocking, but the code drops it for some clockings and keeps it for others. -/
theorem C46_apex_depends_on_clocking :
    (inSegment 0 3 60 0 0 0 ∧ inSegment 0 3 60 180 0 0) ∧
    (∃ b, genAnnularSector 7 7 0 0 0 3 60 0 = .ok b ∧ b.centered 0 0 = some true) ∧
    (∃ b, genAnnularSector 7 7 0 0 0 3 60 180 = .ok b ∧ b.centered 0 0 = some false) := by
  have hpi := Real.pi_pos
  have hat : arctan2 0 0 = 0 := by
    unfold arctan2
    rw [show (⟨0, 0⟩ : ℂ) = 0 from rfl, Complex.arg_zero]
  have hR : dhR 0 0 = 0 := by unfold dhR; simp
  refine ⟨⟨⟨0, 0, le_rfl, by norm_num, by norm_num, by simp, by simp⟩,
    ⟨0, 0, le_rfl, by norm_num, by norm_num, by simp, by simp⟩⟩, ?_, ?_⟩
  · obtain ⟨b, eb, hb⟩ := genSector_mask 7 7 (by norm_num) (by norm_num) 0 0 0 3 60 0 le_rfl (by norm_num) (by norm_num)
    obtain ⟨v, hv, ev⟩ := hb.2.2 0 0 (by unfold Reaches; norm_num)
    refine ⟨b, eb, ?_⟩
    rw [hv]
    congr 1
    apply ev.mpr
    simp only [Int.cast_zero, sub_zero]
    unfold sectorTest
    rw [hR, hat]
    refine ⟨by norm_num, ?_⟩
    have : wrapAngle (0 - 0 * Real.pi / 180) = 0 := by
      unfold wrapAngle; simp
    rw [this, abs_zero]
    positivity
  · obtain ⟨b, eb, hb⟩ := genSector_mask 7 7 (by norm_num) (by norm_num) 0 0 0 3 60 180 le_rfl (by norm_num) (by norm_num)
    obtain ⟨v, hv, ev⟩ := hb.2.2 0 0 (by unfold Reaches; norm_num)
    refine ⟨b, eb, ?_⟩
    rw [hv]
    congr 1
    have hv' : ¬ (v = true) := by
      rw [ev]
      simp only [Int.cast_zero, sub_zero]
      unfold sectorTest
      rw [hat]
      rintro ⟨-, hh⟩
      obtain ⟨c, -⟩ := wrap_cos_sin (0 - 180 * Real.pi / 180)
      rw [show (0 : ℝ) - 180 * Real.pi / 180 = -Real.pi by ring] at c hh
      rw [Real.cos_neg, Real.cos_pi] at c
      rw [abs_le] at hh
      have : 0 < Real.cos (wrapAngle (-Real.pi)) :=
        Real.cos_pos_of_mem_Ioo ⟨by linarith [hh.1], by linarith [hh.2]⟩
      linarith
    cases v <;> simp_all

/-- A non-trivial specification the theorems apply to. -/
example : (⟨some 0, some 0, some "bowtie", none, none, some 3, some 9, some 65, some 30⟩ : ShapeSpec).Describes
    (.bowtie 0 0 3 9 65 30) ∧ (Region.bowtie 0 0 3 9 65 30).Valid := by
  refine ⟨⟨rfl, rfl, rfl, rfl, rfl, rfl, rfl⟩, ?_⟩
  unfold Region.Valid
  norm_num

end Coralign.Props
