import Verif.Props.DarkHole
import Verif.Props.DmShapes
import Verif.Props.PadCrop
import Verif.Props.MeasureSymmetry

/-!
# C125: mirrored and transposed patterns: dark holes, shapes for the DM, padding and cropping
-/

namespace Coralign.Props

open Coralign Coralign.Spec Finset

/-! ### Dark holes -/

/-- Specification: where the coordinate `x` from the centre pixel goes when an axis of `n` pixels is mirrored.  An even axis has one pixel more before its
centre pixel than after it. -/
noncomputable def mirroredCoord (n : ℕ) (x : ℝ) : ℝ := if n % 2 = 0 then -1 - x else -x

/-- Specification: an entry of the file as seen mirrored left to right in an array of `nCols` columns, or transposed. -/
noncomputable def ShapeSpec.seen (f : Flip) (nCols : ℕ) (s : ShapeSpec) : ShapeSpec := match f with
  | .mirror => { s with xOffset := s.xOffset.map (mirroredCoord nCols), clocking := s.clocking.map fun c => 180 - c }
  | .transpose => { s with xOffset := s.yOffset, yOffset := s.xOffset, width := s.height, height := s.width, clocking := s.clocking.map fun c => 90 - c }

/-- The region as seen mirrored or transposed. -/
noncomputable def Region.seen (f : Flip) (nCols : ℕ) : Region → Region := match f with
  | .mirror => fun
    | .rectangle xo yo w h => .rectangle (mirroredCoord nCols xo) yo w h
    | .annulus xo yo ri ro => .annulus (mirroredCoord nCols xo) yo ri ro
    | .sector xo yo ri ro op cl => .sector (mirroredCoord nCols xo) yo ri ro op (180 - cl)
    | .bowtie xo yo ri ro op cl => .bowtie (mirroredCoord nCols xo) yo ri ro op (180 - cl)
  | .transpose => fun
    | .rectangle xo yo w h => .rectangle yo xo h w
    | .annulus xo yo ri ro => .annulus yo xo ri ro
    | .sector xo yo ri ro op cl => .sector yo xo ri ro op (90 - cl)
    | .bowtie xo yo ri ro op cl => .bowtie yo xo ri ro op (90 - cl)

theorem segment_mirror_aux (a b op cl x y : ℝ) (h : inSegment a b op cl x y) : inSegment a b op (180 - cl) (-x) y := by
  obtain ⟨ρ, φ, h1, h2, h3, rfl, rfl⟩ := h
  refine ⟨ρ, -φ, h1, h2, by rwa [abs_neg], ?_, ?_⟩
  · rw [show (180 - cl + -φ) * Real.pi / 180 = Real.pi - (cl + φ) * Real.pi / 180 by ring, Real.cos_pi_sub]; ring
  · rw [show (180 - cl + -φ) * Real.pi / 180 = Real.pi - (cl + φ) * Real.pi / 180 by ring, Real.sin_pi_sub]

theorem segment_mirror (a b op cl x y : ℝ) : inSegment a b op (180 - cl) x y ↔ inSegment a b op cl (-x) y := by
  refine ⟨fun h => ?_, fun h => ?_⟩
  · have := segment_mirror_aux _ _ _ _ _ _ h
    rwa [sub_sub_cancel] at this
  · have := segment_mirror_aux _ _ _ _ _ _ h
    rwa [neg_neg] at this

theorem segment_transpose_aux (a b op cl x y : ℝ) (h : inSegment a b op cl x y) : inSegment a b op (90 - cl) y x := by
  obtain ⟨ρ, φ, h1, h2, h3, rfl, rfl⟩ := h
  refine ⟨ρ, -φ, h1, h2, by rwa [abs_neg], ?_, ?_⟩
  · rw [show (90 - cl + -φ) * Real.pi / 180 = Real.pi / 2 - (cl + φ) * Real.pi / 180 by ring, Real.cos_pi_div_two_sub]
  · rw [show (90 - cl + -φ) * Real.pi / 180 = Real.pi / 2 - (cl + φ) * Real.pi / 180 by ring, Real.sin_pi_div_two_sub]

theorem segment_transpose (a b op cl x y : ℝ) : inSegment a b op (90 - cl) x y ↔ inSegment a b op cl y x := by
  refine ⟨fun h => ?_, segment_transpose_aux _ _ _ _ _ _⟩
  have := segment_transpose_aux _ _ _ _ _ _ h
  rwa [sub_sub_cancel] at this

theorem mirroredCoord_sub (n : ℕ) (x xo : ℝ) : x - mirroredCoord n xo = -(mirroredCoord n x - xo) := by
  unfold mirroredCoord; split <;> ring

theorem mirroredCoord_inv (n : ℕ) (x : ℝ) : mirroredCoord n (mirroredCoord n x) = x := by
  unfold mirroredCoord; split <;> ring

/-- The point that an exchange brings to `(x, y)`. -/
noncomputable def Flip.point (f : Flip) (nCols : ℕ) (x y : ℝ) : ℝ × ℝ := match f with
  | .mirror => (mirroredCoord nCols x, y)
  | .transpose => (y, x)

theorem seen_covers (f : Flip) (n : ℕ) (r : Region) (x y : ℝ) : (Region.seen f n r).covers x y ↔ r.covers (f.point n x y).1 (f.point n x y).2 := by
  cases f with
  | mirror =>
    cases r with
    | rectangle xo yo w h =>
      show (|x - mirroredCoord n xo| ≤ _ ∧ |y - yo| ≤ _) ↔ (|mirroredCoord n x - xo| ≤ _ ∧ |y - yo| ≤ _)
      rw [mirroredCoord_sub, abs_neg]
    | annulus xo yo ri ro =>
      show (_ ≤ (x - mirroredCoord n xo) ^ 2 + _ ∧ (x - mirroredCoord n xo) ^ 2 + _ ≤ _) ↔ (_ ≤ (mirroredCoord n x - xo) ^ 2 + _ ∧ (mirroredCoord n x - xo) ^ 2 + _ ≤ _)
      rw [mirroredCoord_sub, neg_sq]
      exact Iff.rfl
    | sector xo yo ri ro op cl =>
      show inSegment ri ro op (180 - cl) (x - mirroredCoord n xo) (y - yo) ↔ inSegment ri ro op cl (mirroredCoord n x - xo) (y - yo)
      rw [segment_mirror, mirroredCoord_sub, neg_neg]
    | bowtie xo yo ri ro op cl =>
      show (inSegment ri ro op (180 - cl) (x - mirroredCoord n xo) (y - yo) ∨ (_ ∧ inSegment ri ro op (180 - cl) (-(x - mirroredCoord n xo)) (-(y - yo)))) ↔
        (inSegment ri ro op cl (mirroredCoord n x - xo) (y - yo) ∨ (_ ∧ inSegment ri ro op cl (-(mirroredCoord n x - xo)) (-(y - yo))))
      rw [segment_mirror, segment_mirror, mirroredCoord_sub, neg_neg]
  | transpose =>
    cases r with
    | rectangle xo yo w h => exact and_comm
    | annulus xo yo ri ro =>
      show (_ ≤ (x - yo) ^ 2 + (y - xo) ^ 2 ∧ (x - yo) ^ 2 + (y - xo) ^ 2 ≤ _) ↔ (_ ≤ (y - xo) ^ 2 + (x - yo) ^ 2 ∧ (y - xo) ^ 2 + (x - yo) ^ 2 ≤ _)
      rw [add_comm]
    | sector xo yo ri ro op cl => exact segment_transpose ri ro op cl (x - yo) (y - xo)
    | bowtie xo yo ri ro op cl =>
      show (inSegment ri ro op (90 - cl) (x - yo) (y - xo) ∨ (_ ∧ inSegment ri ro op (90 - cl) (-(x - yo)) (-(y - xo)))) ↔
        (inSegment ri ro op cl (y - xo) (x - yo) ∨ (_ ∧ inSegment ri ro op cl (-(y - xo)) (-(x - yo))))
      rw [segment_transpose, segment_transpose]

theorem seen_valid (f : Flip) (n : ℕ) (r : Region) (h : r.Valid) : (Region.seen f n r).Valid := by
  cases f <;> cases r <;> first | exact h | exact ⟨h.2, h.1⟩

theorem seen_describes (f : Flip) (n : ℕ) (s : ShapeSpec) (r : Region) (h : s.Describes r) : (ShapeSpec.seen f n s).Describes (Region.seen f n r) := by
  cases f with
  | mirror =>
    cases r with
    | rectangle xo yo w hh => obtain ⟨a, b, c, d, e⟩ := h; exact ⟨by show s.xOffset.map _ = _; rw [a]; rfl, b, c, d, e⟩
    | annulus xo yo ri ro => obtain ⟨a, b, c, d, e⟩ := h; exact ⟨by show s.xOffset.map _ = _; rw [a]; rfl, b, c, d, e⟩
    | sector xo yo ri ro op cl =>
      obtain ⟨a, b, c, d, e, g, i⟩ := h
      exact ⟨by show s.xOffset.map _ = _; rw [a]; rfl, b, c, d, e, g, by show s.clocking.map _ = _; rw [i]; rfl⟩
    | bowtie xo yo ri ro op cl =>
      obtain ⟨a, b, c, d, e, g, i⟩ := h
      exact ⟨by show s.xOffset.map _ = _; rw [a]; rfl, b, c, d, e, g, by show s.clocking.map _ = _; rw [i]; rfl⟩
  | transpose =>
    cases r with
    | rectangle xo yo w hh => obtain ⟨a, b, c, d, e⟩ := h; exact ⟨b, a, c, e, d⟩
    | annulus xo yo ri ro => obtain ⟨a, b, c, d, e⟩ := h; exact ⟨b, a, c, d, e⟩
    | sector xo yo ri ro op cl =>
      obtain ⟨a, b, c, d, e, g, i⟩ := h
      exact ⟨b, a, c, d, e, g, by show s.clocking.map _ = _; rw [i]; rfl⟩
    | bowtie xo yo ri ro op cl =>
      obtain ⟨a, b, c, d, e, g, i⟩ := h
      exact ⟨b, a, c, d, e, g, by show s.clocking.map _ = _; rw [i]; rfl⟩

theorem seen_apex (f : Flip) (n : ℕ) (r : Region) (h : ∀ x y, ¬ r.Apex x y) (x y : ℝ) : ¬ (Region.seen f n r).Apex x y := by
  cases f <;> cases r <;> first | exact fun h => h | exact fun a => h _ _ ⟨a.1, rfl, rfl⟩

/-- Specification: the sizes as seen mirrored or transposed. -/
def Flip.sizes (f : Flip) (nr nc : ℕ) : ℕ × ℕ := match f with
  | .mirror => (nr, nc)
  | .transpose => (nc, nr)

theorem isMask_flip (f : Flip) (m : Arr2 Bool) (nr nc : ℕ) (P : ℝ → ℝ → Prop) (h : IsMask m nr nc P) :
    IsMask (f.on m) (f.sizes nr nc).1 (f.sizes nr nc).2 (fun x y => P (f.point nc x y).1 (f.point nc x y).2) := by
  obtain ⟨rfl, rfl, h3⟩ := h
  cases f with
  | mirror =>
    refine ⟨rfl, rfl, fun k l hr => ?_⟩
    have hr' : Reaches m.nr m.nc k l := hr
    obtain ⟨b, hb, e⟩ := h3 k ((m.nc : ℤ) - 1 - 2 * ((m.nc : ℤ) / 2) - l) (by unfold Reaches at hr' ⊢; omega)
    refine ⟨b, ?_, e.trans ?_⟩
    · show m.fliplr.centered k l = _
      rw [← hb]
      unfold Arr2.centered
      rw [fliplr_px]
      show m.px _ ((m.nc : ℤ) - 1 - ((m.nc : ℤ) / 2 + l)) = _
      congr 1
      omega
    · show _ ↔ P (mirroredCoord m.nc l) k
      have : (((m.nc : ℤ) - 1 - 2 * ((m.nc : ℤ) / 2) - l : ℤ) : ℝ) = mirroredCoord m.nc l := by
        unfold mirroredCoord
        split
        · rw [show (m.nc : ℤ) - 1 - 2 * ((m.nc : ℤ) / 2) - l = -1 - l by omega]; push_cast; ring
        · rw [show (m.nc : ℤ) - 1 - 2 * ((m.nc : ℤ) / 2) - l = -l by omega]; push_cast; ring
      rw [this]
  | transpose =>
    refine ⟨rfl, rfl, fun k l hr => ?_⟩
    have hr' : Reaches m.nc m.nr k l := hr
    obtain ⟨b, hb, e⟩ := h3 l k (by unfold Reaches at hr' ⊢; omega)
    refine ⟨b, ?_, e⟩
    show m.tr.centered k l = _
    rw [← hb]
    unfold Arr2.centered
    rw [tr_px]
    rfl

/-- **C125.** The dark hole of a file with every entry mirrored or transposed is the mirrored or transposed dark hole, for every list of shapes in which no sector or bowtie
reaches in to its apex. -/
theorem C125_dark_hole (f : Flip) (nr nc : ℕ) (l : List ShapeSpec) (hin : ∀ s ∈ l, ∀ r, s.Describes r → ∀ x y, ¬ r.Apex x y) (m : Arr2 Bool)
    (h : genDarkHole nr nc l = .ok (.bool m)) :
    genDarkHole (f.sizes nr nc).1 (f.sizes nr nc).2 (l.map (ShapeSpec.seen f nc)) = .ok (.bool (f.on m)) := by
  obtain ⟨hr, hc, hl⟩ := (C46_accepts_iff nr nc l).mp ⟨_, h⟩
  have hr : 1 ≤ nr := by omega
  have hc : 1 ≤ nc := by omega
  choose! g hg using hl
  have hne : l ≠ [] := by
    rintro rfl
    rw [show genDarkHole nr nc [] = _ from C46_empty_is_float nr nc hr hc] at h
    cases h
  have key : ∀ (f' : ShapeSpec → ShapeSpec) (g' : ShapeSpec → Region) (a b : ℕ), 1 ≤ a → 1 ≤ b → (∀ s ∈ l, (f' s).Describes (g' s) ∧ (g' s).Valid) →
      ∃ o, genDarkHole a b (l.map f') = .ok (.bool o) ∧ IsMask o a b (fun x y => ∃ s ∈ l, (g' s).test x y) := by
    intro f' g' a b ha hb hfg
    obtain ⟨m', em, hm⟩ := fold_mask a b ha hb (l.map fun s => (f' s, g' s)) (by
      intro p hp
      obtain ⟨s, hs, rfl⟩ := List.mem_map.mp hp
      exact hfg s hs) (fun _ _ => False) (.float (Arr2.full a b 0)) ⟨rfl, fun _ _ h => h⟩
    rw [if_neg (by simpa using hne)] at hm
    obtain ⟨o, rfl, ho⟩ := hm
    rw [List.map_map] at em
    refine ⟨o, ?_, ho.congr fun x y => ?_⟩
    · unfold genDarkHole
      rw [if_neg (by omega)]
      exact em
    · simp
  obtain ⟨o, ho, hm⟩ := key id g nr nc hr hc hg
  rw [List.map_id, h] at ho
  obtain rfl : m = o := by injection ho with ho; injection ho
  obtain ⟨o', ho', hm'⟩ := key (ShapeSpec.seen f nc) (fun s => Region.seen f nc (g s)) (f.sizes nr nc).1 (f.sizes nr nc).2 (by cases f; exacts [hr, hc]) (by cases f; exacts [hc, hr])
    (fun s hs => ⟨seen_describes f nc s _ (hg s hs).1, seen_valid f nc _ (hg s hs).2⟩)
  rw [ho', isMask_ext hm' ((isMask_flip f m nr nc _ hm).congr fun x y => ?_)]
  refine exists_congr fun s => and_congr_right fun hs => ?_
  rw [Region.test_iff _ (hg s hs).2 _ _ (hin s hs _ (hg s hs).1 _ _), Region.test_iff _ (seen_valid f nc _ (hg s hs).2) _ _ (seen_apex f nc _ (hin s hs _ (hg s hs).1) _ _),
    seen_covers]

/-! ### Shapes for the DM -/

theorem ofFn_tr {α : Type} (n m : ℕ) (v : ℕ → ℕ → α) : (Arr2.ofFn n m v).tr = Arr2.ofFn m n fun i j => v j i := rfl

theorem ofFn_fliplr {α : Type} (n m : ℕ) (v : ℕ → ℕ → α) : (Arr2.ofFn n m v).fliplr = Arr2.ofFn n m fun i j => v i (m - 1 - j) := by
  unfold Arr2.fliplr Arr2.ofFn
  congr 1
  refine funext fun (i : Fin n) => funext fun (j : Fin m) => ?_
  show v i ((Fin.rev j : Fin m) : ℕ) = _
  rw [Fin.val_rev, Nat.sub_add_eq, Nat.sub_right_comm]

theorem ofFn_congr_below {α : Type} (n m : ℕ) (v w : ℕ → ℕ → α) (h : ∀ i j, i < n → j < m → v i j = w i j) : Arr2.ofFn n m v = Arr2.ofFn n m w := by
  unfold Arr2.ofFn
  congr 1
  exact funext fun (i : Fin n) => funext fun (j : Fin m) => h _ _ i.isLt j.isLt

theorem dmAxis_rev (n j : ℕ) (h : j < n) : dmAxis n (n - 1 - j) = -dmAxis n j := by
  unfold dmAxis
  rw [Nat.cast_sub (by omega), Nat.cast_sub (by omega)]
  push_cast
  ring

/-- **C125.** A sine with the two frequencies exchanged is the transposed one, also as to the exception; with the frequency along the rows reversed, the mirrored one. -/
theorem C125_sine (nact : ℤ) (dact a phase fx fy : ℝ) :
    sine nact dact a phase fy fx = (sine nact dact a phase fx fy).map Arr2.tr ∧
    sine nact dact a phase (-fx) fy = (sine nact dact a phase fx fy).map Arr2.fliplr := by
  unfold sine
  by_cases h : nact ≤ 0 ∨ dact ≤ 0 ∨ a ≤ 0
  · rw [if_pos h, if_pos h, if_pos h]
    exact ⟨rfl, rfl⟩
  rw [if_neg h, if_neg h, if_neg h]
  constructor
  · show Except.ok _ = Except.ok (Arr2.tr _)
    rw [ofFn_tr]
    congr 1
    refine ofFn_congr_below _ _ _ _ fun i j _ _ => ?_
    simp only
    rw [add_comm (dmAxis _ j * fy)]
  · show Except.ok _ = Except.ok (Arr2.fliplr _)
    rw [ofFn_fliplr]
    congr 1
    refine ofFn_congr_below _ _ _ _ fun i j _ hj => ?_
    simp only
    rw [dmAxis_rev _ _ hj, neg_mul, mul_neg]

theorem probeVal_tr (dact clock height ximin ximax etamin etamax phase x y : ℝ) :
    probeVal dact (-clock) height etamin etamax ximin ximax phase y x = probeVal dact clock height ximin ximax etamin etamax phase x y := by
  unfold probeVal
  simp only
  rw [show -clock * Real.pi / 180 = -(clock * Real.pi / 180) by ring, Real.cos_neg, Real.sin_neg,
    show y * Real.cos (clock * Real.pi / 180) - x * -Real.sin (clock * Real.pi / 180) = x * Real.sin (clock * Real.pi / 180) + y * Real.cos (clock * Real.pi / 180) by ring,
    show y * -Real.sin (clock * Real.pi / 180) + x * Real.cos (clock * Real.pi / 180) = x * Real.cos (clock * Real.pi / 180) - y * Real.sin (clock * Real.pi / 180) by ring]
  rw [mul_right_comm height, mul_comm (dact / (etamax - etamin)) (dact / (ximax - ximin)), add_comm (_ * ((etamin + etamax) / 2))]

theorem probeVal_mirror (dact clock height ximin ximax etamin etamax phase x y : ℝ) :
    probeVal dact (-clock) height (-ximax) (-ximin) etamin etamax phase (-x) y = probeVal dact clock height ximin ximax etamin etamax phase x y := by
  unfold probeVal
  simp only
  rw [show -clock * Real.pi / 180 = -(clock * Real.pi / 180) by ring, Real.cos_neg, Real.sin_neg,
    show -x * Real.cos (clock * Real.pi / 180) - y * -Real.sin (clock * Real.pi / 180) = -(x * Real.cos (clock * Real.pi / 180) - y * Real.sin (clock * Real.pi / 180)) by ring,
    show -x * -Real.sin (clock * Real.pi / 180) + y * Real.cos (clock * Real.pi / 180) = x * Real.sin (clock * Real.pi / 180) + y * Real.cos (clock * Real.pi / 180) by ring,
    show -ximin - -ximax = ximax - ximin by ring, neg_div, npSinc_neg, show (-ximax + -ximin) / 2 = -((ximin + ximax) / 2) by ring, neg_mul_neg]

/-- **C125.** A probe with the two axes exchanged everywhere (centre, extent) and the clocking reversed is the transposed probe; with the centre, the extent along the rows
and the clocking reversed, the mirrored one.  The same arguments are refused. -/
theorem C125_probe (nact : ℤ) (dact xc yc clock height ximin ximax etamin etamax phase : ℝ) :
    probe nact dact yc xc (-clock) height etamin etamax ximin ximax phase = (probe nact dact xc yc clock height ximin ximax etamin etamax phase).map Arr2.tr ∧
    probe nact dact (-xc) yc (-clock) height (-ximax) (-ximin) etamin etamax phase =
      (probe nact dact xc yc clock height ximin ximax etamin etamax phase).map Arr2.fliplr := by
  unfold probe
  by_cases h : nact ≤ 0 ∨ dact ≤ 0 ∨ height ≤ 0
  · rw [if_pos h, if_pos h, if_pos h]
    exact ⟨rfl, rfl⟩
  rw [if_neg h, if_neg h, if_neg h]
  have hn : (-ximax ≥ -ximin) = (ximin ≥ ximax) := propext neg_le_neg_iff
  simp only [hn]
  by_cases h1 : ximin ≥ ximax
  · by_cases h2 : etamin ≥ etamax
    · simp only [if_pos h1, if_pos h2]; exact ⟨rfl, rfl⟩
    · simp only [if_pos h1, if_neg h2]; exact ⟨rfl, rfl⟩
  by_cases h2 : etamin ≥ etamax
  · simp only [if_neg h1, if_pos h2]; exact ⟨rfl, rfl⟩
  simp only [if_neg h1, if_neg h2]
  constructor
  · show Except.ok _ = Except.ok (Arr2.tr _)
    rw [ofFn_tr]
    congr 1
    exact ofFn_congr_below _ _ _ _ fun i j _ _ => probeVal_tr ..
  · show Except.ok _ = Except.ok (Arr2.fliplr _)
    rw [ofFn_fliplr]
    congr 1
    refine ofFn_congr_below _ _ _ _ fun i j _ hj => ?_
    rw [dmAxis_rev _ _ hj, ← probeVal_mirror _ clock]
    congr 1
    ring

/-- **C125.** A grid of pokes with the two spacings and offsets exchanged is the transposed grid, and the same arguments are refused. -/
theorem C125_grid_transposed {K : Type} [AddCommMonoid K] (nact xs ys xo yo : ℤ) (poke : K) :
    grid nact ys xs yo xo poke = (grid nact xs ys xo yo poke).map Arr2.tr := by
  unfold grid
  by_cases h : nact ≤ 0 ∨ xs ≤ 0 ∨ ys ≤ 0 ∨ xo < 0 ∨ yo < 0
  · rw [if_pos h, if_pos (by tauto)]; rfl
  rw [if_neg h, if_neg (by tauto)]
  by_cases h1 : xo ≥ xs <;> by_cases h2 : yo ≥ ys
  · simp only [if_pos h1, if_pos h2]; rfl
  · simp only [if_pos h1, if_neg h2]; rfl
  · simp only [if_neg h1, if_pos h2]; rfl
  simp only [if_neg h1, if_neg h2]
  by_cases h3 : xs > nact <;> by_cases h4 : ys > nact
  · simp only [if_pos h3, if_pos h4]; rfl
  · simp only [if_pos h3, if_neg h4]; rfl
  · simp only [if_neg h3, if_pos h4]; rfl
  simp only [if_neg h3, if_neg h4]
  show Except.ok _ = Except.ok (Arr2.tr _)
  rw [ofFn_tr]
  congr 1
  refine ofFn_congr_below _ _ _ _ fun i j _ _ => ?_
  simp only [and_comm]

/-- **C125.** A mirrored grid of pokes is the grid of the same spacings with the offset counted from the other edge. -/
theorem C125_grid_mirrored {K : Type} [AddCommMonoid K] (nact xs ys xo yo : ℕ) (poke : K) (h : GridArgs nact xs ys xo yo) :
    grid nact xs ys (((nact - 1 - xo) % xs : ℕ) : ℤ) yo poke = (grid nact xs ys xo yo poke).map Arr2.fliplr := by
  have h1 := h.xo_lt
  have h3 := h.xs_le
  obtain ⟨o, ho, r1, c1, v1⟩ := C41_grid_lattice nact xs ys xo yo poke h
  obtain ⟨q, hq, r2, c2, v2⟩ := C41_grid_lattice nact xs ys ((nact - 1 - xo) % xs) yo poke ⟨Nat.mod_lt _ (by omega), h.yo_lt, h.xs_le, h.ys_le⟩
  rw [ho, hq]
  show Except.ok _ = Except.ok (Arr2.fliplr _)
  congr 1
  refine Arr2.ext_px (r2.trans r1.symm) (c2.trans c1.symm) fun i j a1 a2 a3 a4 => ?_
  obtain ⟨i, rfl⟩ := Int.eq_ofNat_of_zero_le a1
  obtain ⟨j, rfl⟩ := Int.eq_ofNat_of_zero_le a3
  rw [fliplr_px, v2 i j (by omega) (by omega), c1, show ((nact : ℤ) - 1 - (j : ℤ)) = ((nact - 1 - j : ℕ) : ℤ) by omega, v1 i (nact - 1 - j) (by omega) (by omega)]
  have hj : j < nact := by omega
  have hx : xo < nact := by omega
  have key : j % xs = (nact - 1 - xo) % xs ↔ (nact - 1 - j) % xs = xo := by
    have e1 : (j % xs = (nact - 1 - xo) % xs) ↔ Nat.ModEq xs j (nact - 1 - xo) := Iff.rfl
    have e2 : ((nact - 1 - j) % xs = xo) ↔ Nat.ModEq xs (nact - 1 - j) xo := by
      unfold Nat.ModEq; rw [Nat.mod_eq_of_lt h1]
    rw [e1, e2, Nat.modEq_iff_dvd, Nat.modEq_iff_dvd]
    have : ((nact - 1 - xo : ℕ) : ℤ) - (j : ℤ) = -((xo : ℤ) - ((nact - 1 - j : ℕ) : ℤ)) := by omega
    rw [this, dvd_neg]
  simp only [key]

/-! ### Padding and cropping -/

/-- **C125.** `pad_crop` of a transposed array to the transposed size is the transposed result, for every size, fitting or not. -/
theorem C125_pad_crop_transposed {α : Type} (a : Arr2 α) (h w : ℤ) (ev : α) : padCrop a.tr [w, h] ev = (padCrop a [h, w] ev).map Arr2.tr := by
  by_cases hp : 0 < h ∧ 0 < w
  · obtain ⟨o, ho, r1, c1, v1⟩ := C01_pad_crop_registered a h w ev hp.1 hp.2
    obtain ⟨q, hq, r2, c2, v2⟩ := C01_pad_crop_registered a.tr w h ev hp.2 hp.1
    rw [ho, hq]
    show Except.ok _ = Except.ok (Arr2.tr _)
    congr 1
    refine Arr2.ext_px (show q.nr = o.nc by omega) (show q.nc = o.nr by omega) fun i j a1 a2 a3 a4 => ?_
    have e1 := v1 (j - h / 2) (i - w / 2) (by unfold Reaches; omega)
    have e2 := v2 (i - w / 2) (j - h / 2) (by unfold Reaches; omega)
    have t : a.tr.centered (i - w / 2) (j - h / 2) = a.centered (j - h / 2) (i - w / 2) := by
      unfold Arr2.centered
      rw [tr_px]
      rfl
    rw [t, ← e1] at e2
    unfold Arr2.centered at e2
    rw [r1, c1, r2, c2] at e2
    rw [tr_px]
    convert e2 using 2 <;> omega
  · rw [padCrop_error a _ ev (by rintro ⟨x, y, e, p, q⟩; injection e with e1 e; injection e with e2; exact hp ⟨e1 ▸ p, e2 ▸ q⟩),
      padCrop_error a.tr _ ev (by rintro ⟨x, y, e, p, q⟩; injection e with e1 e; injection e with e2; exact hp ⟨e2 ▸ q, e1 ▸ p⟩)]
    rfl

/-- **C125.** `pad_crop` of a mirrored array is the mirrored result when the numbers of columns before and after are both even or both odd. -/
theorem C125_pad_crop_mirrored {α : Type} (a : Arr2 α) (h w : ℤ) (ev : α) (hpar : (a.nc : ℤ) % 2 = w % 2) :
    padCrop a.fliplr [h, w] ev = (padCrop a [h, w] ev).map Arr2.fliplr := by
  by_cases hp : 0 < h ∧ 0 < w
  · obtain ⟨o, ho, r1, c1, v1⟩ := C01_pad_crop_registered a h w ev hp.1 hp.2
    obtain ⟨q, hq, r2, c2, v2⟩ := C01_pad_crop_registered a.fliplr h w ev hp.1 hp.2
    rw [ho, hq]
    show Except.ok _ = Except.ok (Arr2.fliplr _)
    congr 1
    refine Arr2.ext_px (show q.nr = o.nr by omega) (show q.nc = o.nc by omega) fun i j a1 a2 a3 a4 => ?_
    have e1 := v1 (i - h / 2) (w - 1 - j - w / 2) (by unfold Reaches; omega)
    have e2 := v2 (i - h / 2) (j - w / 2) (by unfold Reaches; omega)
    have t : a.fliplr.centered (i - h / 2) (j - w / 2) = a.centered (i - h / 2) (w - 1 - j - w / 2) := by
      unfold Arr2.centered
      rw [fliplr_px]
      show a.px _ ((a.nc : ℤ) - 1 - ((a.nc : ℤ) / 2 + (j - w / 2))) = a.px _ _
      congr 1
      omega
    rw [t, ← e1] at e2
    unfold Arr2.centered at e2
    rw [r1, c1, r2, c2] at e2
    rw [fliplr_px]
    convert e2 using 2 <;> omega
  · have : ¬ ∃ x y : ℤ, [h, w] = [x, y] ∧ 0 < x ∧ 0 < y := by
      rintro ⟨x, y, e, p, q⟩; injection e with e1 e; injection e with e2; exact hp ⟨e1 ▸ p, e2 ▸ q⟩
    rw [padCrop_error a _ ev this, padCrop_error a.fliplr _ ev this]
    rfl

/-- **C125.** `offcenter_crop` of a transposed image with the two centres exchanged is the transposed window, and the same widths are refused. -/
theorem C125_offcenter_crop_transposed {α : Type} {K : Type*} [Field K] [LinearOrder K] [IsStrictOrderedRing K] [FloorRing K] (a : Arr2 α) (zero : α) (n : ℤ) (cy cx : K) :
    offcenterCrop a.tr zero n cx cy = (offcenterCrop a zero n cy cx).map Arr2.tr := by
  by_cases hn : 0 < n
  · rw [offcenterCrop_eq a zero n hn, offcenterCrop_eq a.tr zero n hn]
    show Except.ok _ = Except.ok (Arr2.tr _)
    rw [ofFn_tr]
    congr 1
    refine ofFn_congr_below _ _ _ _ fun i j _ _ => ?_
    rw [tr_px]
  · rw [C04_offcenter_crop_rejects a zero n cy cx (by omega), C04_offcenter_crop_rejects a.tr zero n cx cy (by omega)]
    rfl

/-! ### Cases -/

/-- A rectangle and a bowtie in five rows and six columns, off centre: the file is accepted, and no apex is reached. -/
example : ∃ m, genDarkHole (5 : ℕ) (6 : ℕ) [⟨some 1, some 0, some "rectangle", some 2, some 1, none, none, none, none⟩,
    ⟨some (-1), some 0, some "bowtie", none, none, some 1, some 2, some 60, some 20⟩] = .ok (.bool m) := by
  obtain ⟨b, hb, -⟩ := C46_union_partial 5 6 (by norm_num) (by norm_num)
    [(⟨some 1, some 0, some "rectangle", some 2, some 1, none, none, none, none⟩, .rectangle 1 0 2 1),
     (⟨some (-1), some 0, some "bowtie", none, none, some 1, some 2, some 60, some 20⟩, .bowtie (-1) 0 1 2 60 20)] (by simp) (by
      intro p hp
      rcases List.mem_cons.mp hp with rfl | hp
      · exact ⟨⟨rfl, rfl, rfl, rfl, rfl⟩, by norm_num, by norm_num⟩
      · rcases List.mem_cons.mp hp with rfl | hp
        · exact ⟨⟨rfl, rfl, rfl, rfl, rfl, rfl, rfl⟩, by norm_num, by norm_num, by norm_num⟩
        · cases hp)
  exact ⟨b, hb⟩

example (x y : ℝ) : ¬ (Region.bowtie (-1) 0 1 2 60 20).Apex x y ∧ ¬ (Region.rectangle 1 0 2 1).Apex x y := ⟨fun h => one_ne_zero h.1, fun h => h⟩

/-- Pokes in the columns 1, 4 and 7 of eight, seen from the other edge: 0, 3 and 6. -/
example : GridArgs 8 3 2 1 0 ∧ (8 - 1 - 1) % 3 = 0 := ⟨⟨by norm_num, by norm_num, by norm_num, by norm_num⟩, rfl⟩

end Coralign.Props
