import Verif.Props.Unwrap
import Mathlib.Analysis.Complex.Norm
import Mathlib.Logic.Relation

/-!
# Property C132: unwrapping recovers a gently varying phase, and separated segments stay together

`FollowsGentle` and `TakesNearest` are contracts of `skimage.restoration.unwrap_phase` and of
`scipy.interpolate.NearestNDInterpolator`.  Both are shown to be satisfiable below.
-/

namespace Coralign.Props

open Coralign

/-- Specification: two pixels that share an edge. -/
def EdgeAdj (x y : ℤ × ℤ) : Prop :=
  (x.1 = y.1 ∧ (x.2 = y.2 + 1 ∨ y.2 = x.2 + 1)) ∨ (x.2 = y.2 ∧ (x.1 = y.1 + 1 ∨ y.1 = x.1 + 1))

/-- Specification: pixel `x` belongs to the mask. -/
def Used (m : Arr2 Bool) (x : ℤ × ℤ) : Prop := m.px x.1 x.2 = some true

/-- Specification: on the mask the phase map is `θ` up to whole turns. -/
def WrapsOf (p : Arr2 ℝ) (m : Arr2 Bool) (θ : ℤ × ℤ → ℝ) : Prop :=
  ∀ x v, Used m x → p.px x.1 x.2 = some v → ∃ k : ℤ, v = θ x + 2 * Real.pi * k

/-- Specification: `θ` changes by less than half a turn between pixels of the mask that share an edge. -/
def Gentle (m : Arr2 Bool) (θ : ℤ × ℤ → ℝ) : Prop :=
  ∀ x y, Used m x → Used m y → EdgeAdj x y → |θ x - θ y| < Real.pi

/-- Contract of `unwrap_phase`: if the phase map is a wrapped copy of a phase that changes by less than half a turn
between adjacent unmasked pixels, the result has the same differences between adjacent unmasked pixels. -/
def FollowsGentle (U : Unwrapper) : Prop :=
  ∀ p m θ, m.nr = p.nr → m.nc = p.nc → WrapsOf p m θ → Gentle m θ → ∀ x y, Used m x → Used m y → EdgeAdj x y →
    ∀ v w, (U.run p m).px x.1 x.2 = some v → (U.run p m).px y.1 y.2 = some w → v - w = θ x - θ y

/-- Specification: the distance between two pixels. -/
noncomputable def pixDist (x y : ℤ × ℤ) : ℝ := Real.sqrt (((x.1 : ℝ) - y.1) ^ 2 + ((x.2 : ℝ) - y.2) ^ 2)

/-- Contract of `NearestNDInterpolator`: at every pixel the value is the phase at one of the nearest pixels of the
mask. -/
def TakesNearest (interp : Arr2 ℝ → Arr2 Bool → Res (ℕ → ℕ → ℝ)) : Prop :=
  ∀ phase me f, interp phase me = .ok f → ∀ i j : ℕ, i < phase.nr → j < phase.nc →
    ∃ s, Used me s ∧ phase.px s.1 s.2 = some (f i j) ∧ ∀ t, Used me t → pixDist (i, j) s ≤ pixDist (i, j) t

/-- Specification: pixels joined by a chain of pixels of the mask, each sharing an edge with the next. -/
def Linked (m : Arr2 Bool) : ℤ × ℤ → ℤ × ℤ → Prop :=
  Relation.ReflTransGen fun x y => Used m x ∧ Used m y ∧ EdgeAdj x y

theorem pixDist_eq (x y : ℤ × ℤ) :
    pixDist x y = ‖((x.1 : ℂ) + x.2 * Complex.I) - (y.1 + y.2 * Complex.I)‖ := by
  rw [Complex.norm_def, pixDist, Complex.normSq_apply]
  congr 1
  simp
  ring

theorem pixDist_comm (x y : ℤ × ℤ) : pixDist x y = pixDist y x := by
  rw [pixDist_eq, pixDist_eq, norm_sub_rev]

theorem pixDist_triangle (x y z : ℤ × ℤ) : pixDist x z ≤ pixDist x y + pixDist y z := by
  rw [pixDist_eq, pixDist_eq, pixDist_eq]
  exact norm_sub_le_norm_sub_add_norm_sub _ _ _

theorem pixDist_self (x : ℤ × ℤ) : pixDist x x = 0 := by simp [pixDist]

theorem pixDist_edgeAdj {x y : ℤ × ℤ} (h : EdgeAdj x y) : pixDist x y = 1 := by
  obtain ⟨a, b⟩ := x
  obtain ⟨c, d⟩ := y
  unfold pixDist
  rw [Real.sqrt_eq_one]
  rcases h with ⟨h1, h2 | h2⟩ | ⟨h1, h2 | h2⟩ <;> simp only at h1 h2 <;> subst h1 <;> subst h2 <;> push_cast <;> ring

theorem edgeAdj_symm {x y : ℤ × ℤ} (h : EdgeAdj x y) : EdgeAdj y x := by
  unfold EdgeAdj at *
  omega

theorem used_inB {m : Arr2 Bool} {x : ℤ × ℤ} (h : Used m x) : (0 ≤ x.1 ∧ x.1 < m.nr) ∧ (0 ≤ x.2 ∧ x.2 < m.nc) :=
  (Arr2.px_isSome m x.1 x.2).mp (by rw [show m.px x.1 x.2 = some true from h]; rfl)

theorem linked_used {m : Arr2 Bool} {x y : ℤ × ℤ} (hx : Used m x) (h : Linked m x y) : Used m y := by
  induction h with
  | refl => exact hx
  | tail _ h _ => exact h.2.1

/-- Along a chain the unwrapped phase keeps its distance from the true one. -/
theorem linked_offset {U : Unwrapper} (hU : FollowsGentle U) {p : Arr2 ℝ} {m : Arr2 Bool} {θ : ℤ × ℤ → ℝ}
    (hr : m.nr = p.nr) (hc : m.nc = p.nc) (hw : WrapsOf p m θ) (hg : Gentle m θ) {x y : ℤ × ℤ} (h : Linked m x y)
    {d : ℝ} (hx : (U.run p m).px x.1 x.2 = some (θ x + d)) : (U.run p m).px y.1 y.2 = some (θ y + d) := by
  induction h with
  | refl => exact hx
  | @tail a b _ hab ih =>
    obtain ⟨ha, hb, he⟩ := hab
    have hin : ((0 ≤ b.1 ∧ b.1 < (U.run p m).nr) ∧ (0 ≤ b.2 ∧ b.2 < (U.run p m).nc)) := by
      have := used_inB hb
      rw [U.nr_eq, U.nc_eq, ← hr, ← hc]; exact this
    have hs := Arr2.px_of_inB (U.run p m) hin
    have := hU p m θ hr hc hw hg a b ha hb he _ _ ih hs
    rw [hs]
    congr 1
    linarith

/-- Each used pixel of the unwrapped map is the true phase plus whole turns. -/
theorem run_turns {U : Unwrapper} {p : Arr2 ℝ} {m : Arr2 Bool} {θ : ℤ × ℤ → ℝ} (hr : m.nr = p.nr) (hc : m.nc = p.nc)
    (hw : WrapsOf p m θ) {x : ℤ × ℤ} (hx : Used m x) :
    ∃ k : ℤ, (U.run p m).px x.1 x.2 = some (θ x + 2 * Real.pi * k) := by
  have hin := used_inB hx
  rw [hr, hc] at hin
  have hs := Arr2.px_of_inB p hin
  obtain ⟨k, hk⟩ := U.congr p m x.1 x.2 _ hx hs
  obtain ⟨k', hk'⟩ := hw x _ hx hs
  refine ⟨k + k', ?_⟩
  rw [hk, hk']
  congr 1
  push_cast
  ring

/-- **C132.** Whenever `unwrap` returns and the measured phase is a wrapped copy of a phase `θ` that changes by less than
half a turn between adjacent pixels of the mask, every connected part of the mask comes out as `θ` plus one
whole number of turns. -/
theorem C132_unwrap (U : Unwrapper) (hU : FollowsGentle U) (R : SmallRemover) (phase amplitude : Arr2 ℝ) (nbin : ℤ)
    (fill : ℝ) (minSize : ℤ) (useMask : Bool) (bMask : Option (Arr2 Bool)) (u : Arr2 ℝ) (m : Arr2 Bool)
    (h : unwrap U R phase amplitude nbin fill minSize useMask bMask = .ok (u, m)) (θ : ℤ × ℤ → ℝ)
    (hw : WrapsOf phase m θ) (hg : Gentle m θ) (x : ℤ × ℤ) (hx : Used m x) :
    ∃ k : ℤ, ∀ y, Linked m x y → u.px y.1 y.2 = some (θ y + 2 * Real.pi * k) := by
  have hsp := (C15_unwrap U R _ _ _ _ _ _ _ _ _ h).1.shape
  have hu : u = fillOutside (U.run phase m) m fill := by
    unfold unwrap at h
    cases hc : unwrapChecks phase amplitude nbin minSize bMask with
    | error e => rw [hc] at h; cases h
    | ok _ =>
      rw [hc] at h
      simp only at h
      cases hm : chooseMask R phase amplitude nbin minSize useMask bMask with
      | error e => rw [hm] at h; cases h
      | ok m' =>
        rw [hm] at h
        injection h with h
        obtain ⟨rfl, rfl⟩ := Prod.mk.inj h
        rfl
  obtain ⟨k, hk⟩ := run_turns (U := U) hsp.2.2.1 hsp.2.2.2 hw hx
  refine ⟨k, fun y hy => ?_⟩
  have hy' : m.px y.1 y.2 = some true := linked_used hx hy
  rw [hu, px_fillOutside, linked_offset hU hsp.2.2.1 hsp.2.2.2 hw hg hy hk, hy']
  simp

theorem used_full {nr nc : ℕ} {x : ℤ × ℤ} (h : (0 ≤ x.1 ∧ x.1 < nr) ∧ (0 ≤ x.2 ∧ x.2 < nc)) :
    Used (Arr2.full nr nc true) x := Arr2.px_full_in _ h

/-- In an unmasked array every pixel is linked to the first one. -/
theorem linked_full {nr nc : ℕ} (i j : ℕ) (hi : i < nr) (hj : j < nc) :
    Linked (Arr2.full nr nc true) (0, 0) ((i : ℤ), (j : ℤ)) := by
  have hcol : ∀ j : ℕ, j < nc → Linked (Arr2.full nr nc true) (0, 0) (0, (j : ℤ)) := by
    intro j
    induction j with
    | zero => intro _; exact Relation.ReflTransGen.refl
    | succ j ih =>
      intro hj
      refine (ih (by omega)).tail ⟨used_full ?_, used_full ?_, ?_⟩
      · show (0 ≤ (0 : ℤ) ∧ (0 : ℤ) < nr) ∧ (0 ≤ (j : ℤ) ∧ (j : ℤ) < nc); omega
      · show (0 ≤ (0 : ℤ) ∧ (0 : ℤ) < nr) ∧ (0 ≤ ((j + 1 : ℕ) : ℤ) ∧ ((j + 1 : ℕ) : ℤ) < nc); omega
      · exact Or.inl ⟨rfl, Or.inr (by push_cast; ring)⟩
  induction i with
  | zero => exact hcol j hj
  | succ i ih =>
    refine (ih (by omega)).tail ⟨used_full ?_, used_full ?_, ?_⟩
    · show (0 ≤ (i : ℤ) ∧ (i : ℤ) < nr) ∧ (0 ≤ (j : ℤ) ∧ (j : ℤ) < nc); omega
    · show (0 ≤ ((i + 1 : ℕ) : ℤ) ∧ ((i + 1 : ℕ) : ℤ) < nr) ∧ (0 ≤ (j : ℤ) ∧ (j : ℤ) < nc); omega
    · exact Or.inr ⟨rfl, Or.inr (by push_cast; ring)⟩

/-- **C132.** Whenever `unwrap_segments` returns, however many separate segments the (eroded) mask has: if every pixel of
the array is within `D` pixels of the mask, and the measured phase is on the mask a wrapped copy of a phase `θ` that
differs by less than half a turn between any two pixels of the mask at most `2 D + 1` apart, then the whole
result is `θ` plus one whole number of turns, the same for all segments. -/
theorem C132_segments (U : Unwrapper) (hU : FollowsGentle U) (R : SmallRemover)
    (interp : Arr2 ℝ → Arr2 Bool → Res (ℕ → ℕ → ℝ)) (hI : TakesNearest interp)
    (phase amplitude : Arr2 ℝ) (nbin : ℤ) (fill : ℝ) (minSize : ℤ) (useMask : Bool) (bMask selem : Option (Arr2 Bool))
    (u : Arr2 ℝ) (me : Arr2 Bool)
    (h : unwrapSegments U R interp phase amplitude nbin fill minSize useMask bMask selem = .ok (u, me))
    (θ : ℤ × ℤ → ℝ) (D : ℝ) (hw : WrapsOf phase me θ)
    (hgap : ∀ i j : ℕ, i < phase.nr → j < phase.nc → ∃ t, Used me t ∧ pixDist (i, j) t ≤ D)
    (hsm : ∀ s t, Used me s → Used me t → pixDist s t ≤ 2 * D + 1 → |θ s - θ t| < Real.pi) :
    ∃ k : ℤ, ∀ x, Used me x → u.px x.1 x.2 = some (θ x + 2 * Real.pi * k) := by
  have hshape := (C15_segments U R interp _ _ _ _ _ _ _ _ _ _ h).1.shape
  unfold unwrapSegments at h
  cases hc : unwrapChecks phase amplitude nbin minSize bMask with
  | error e => rw [hc] at h; cases h
  | ok _ =>
  rw [hc] at h
  simp only at h
  cases hm : chooseMask R phase amplitude nbin minSize useMask bMask with
  | error e => rw [hm] at h; cases h
  | ok m =>
  rw [hm] at h
  simp only at h
  cases hme : erodeOpt m selem with
  | error e => rw [hme] at h; cases h
  | ok me' =>
  rw [hme] at h
  simp only at h
  cases hi : interp phase me' with
  | error e => rw [hi] at h; cases h
  | ok f =>
  rw [hi] at h
  simp only at h
  generalize hfil : (⟨phase.nr, phase.nc, fun i j =>
    if me'.px (i : ℕ) (j : ℕ) = some true then phase.val i j else f i j⟩ : Arr2 ℝ) = filled at h
  cases hu : unwrap U R filled amplitude 21 0 64 false none with
  | error e => rw [hu] at h; cases h
  | ok um =>
  obtain ⟨u0, m0⟩ := um
  rw [hu] at h
  simp only [Except.ok.injEq, Prod.mk.injEq] at h
  obtain ⟨rfl, rfl⟩ := h
  have hm0 := (C15_unwrap U R _ _ _ _ _ _ _ _ _ hu).2.2.1 rfl rfl
  have hsh : filled.nr = phase.nr ∧ filled.nc = phase.nc := by rw [← hfil]; exact ⟨rfl, rfl⟩
  rw [hsh.1, hsh.2] at hm0
  -- the pixel of the mask whose phase every pixel gets
  have hsite : ∀ x : ℤ × ℤ, ∃ s, ((0 ≤ x.1 ∧ x.1 < phase.nr) ∧ (0 ≤ x.2 ∧ x.2 < phase.nc)) →
      Used me' s ∧ filled.px x.1 x.2 = phase.px s.1 s.2 ∧ pixDist x s ≤ D ∧ (Used me' x → s = x) := by
    intro x
    by_cases hx : (0 ≤ x.1 ∧ x.1 < phase.nr) ∧ (0 ≤ x.2 ∧ x.2 < phase.nc)
    swap
    · exact ⟨x, fun h => absurd h hx⟩
    obtain ⟨t, ht, htD⟩ := hgap x.1.toNat x.2.toNat (by omega) (by omega)
    have hxe : (((x.1.toNat : ℕ) : ℤ), ((x.2.toNat : ℕ) : ℤ)) = x := by
      ext
      · exact Int.toNat_of_nonneg hx.1.1
      · exact Int.toNat_of_nonneg hx.2.1
    rw [hxe] at htD
    have hfx : filled.px x.1 x.2 = some (if me'.px x.1 x.2 = some true
        then phase.val ⟨x.1.toNat, by omega⟩ ⟨x.2.toNat, by omega⟩ else f x.1.toNat x.2.toNat) := by
      subst hfil
      rw [Arr2.px_of_inB _ (by simp only; exact hx)]
      simp only
      rw [Int.toNat_of_nonneg hx.1.1, Int.toNat_of_nonneg hx.2.1]
    by_cases hux : Used me' x
    · have h0 : (0 : ℝ) ≤ D := le_trans (Real.sqrt_nonneg _) htD
      refine ⟨x, fun _ => ⟨hux, ?_, by rw [pixDist_self]; exact h0, fun _ => rfl⟩⟩
      rw [hfx, if_pos (show me'.px x.1 x.2 = some true from hux), Arr2.px_of_inB phase hx]
    · obtain ⟨s, hs, hv, hmin⟩ := hI phase me' f hi x.1.toNat x.2.toNat (by omega) (by omega)
      rw [hxe] at hmin
      refine ⟨s, fun _ => ⟨hs, ?_, (hmin t ht).trans htD, fun h => absurd h hux⟩⟩
      rw [hfx, if_neg (show ¬ me'.px x.1 x.2 = some true from hux), hv]
  choose site hsite using hsite
  have hin0 : ∀ x, Used m0 x → (0 ≤ x.1 ∧ x.1 < phase.nr) ∧ (0 ≤ x.2 ∧ x.2 < phase.nc) := by
    intro x hx
    have := used_inB hx
    rw [hm0] at this
    exact this
  -- the filled phase is a wrapped copy of `θ ∘ site`, which is gentle on the whole array
  have hw' : WrapsOf filled m0 (θ ∘ site) := by
    intro x v hx hv
    obtain ⟨h1, h2, _, _⟩ := hsite x (hin0 x hx)
    rw [h2] at hv
    exact hw _ _ h1 hv
  have hg' : Gentle m0 (θ ∘ site) := by
    intro x y hx hy he
    obtain ⟨h1, _, h3, _⟩ := hsite x (hin0 x hx)
    obtain ⟨g1, _, g3, _⟩ := hsite y (hin0 y hy)
    refine hsm _ _ h1 g1 ?_
    have t1 := pixDist_triangle (site x) x (site y)
    have t2 := pixDist_triangle x y (site y)
    rw [pixDist_comm (site x) x] at t1
    rw [pixDist_edgeAdj he] at t2
    linarith
  by_cases hne : ∃ x, Used me' x
  swap
  · exact ⟨0, fun x hx => absurd ⟨x, hx⟩ hne⟩
  obtain ⟨x0, hx0⟩ := hne
  have hinme : ∀ x, Used me' x → (0 ≤ x.1 ∧ x.1 < phase.nr) ∧ (0 ≤ x.2 ∧ x.2 < phase.nc) := by
    intro x hx
    have := used_inB hx
    rw [hshape.2.2.1, hshape.2.2.2] at this
    exact this
  have h00 := hinme x0 hx0
  have hu00 : Used m0 (0, 0) := by rw [hm0]; exact used_full (by simp only; omega)
  obtain ⟨k, hk⟩ := C132_unwrap U hU R _ _ _ _ _ _ _ _ _ hu (θ ∘ site) hw' hg' (0, 0) hu00
  refine ⟨k, fun x hx => ?_⟩
  have hxin := hinme x hx
  have hl : Linked m0 (0, 0) x := by
    have := linked_full (nr := phase.nr) (nc := phase.nc) x.1.toNat x.2.toNat (by omega) (by omega)
    rw [Int.toNat_of_nonneg hxin.1.1, Int.toNat_of_nonneg hxin.2.1, ← hm0] at this
    exact this
  have := hk x hl
  rw [Function.comp_apply, (hsite x hxin).2.2.2 hx] at this
  rw [px_fillOutside, this, show me'.px x.1 x.2 = some true from hx]
  simp

/-- **C132.** In terms of a slope: a phase that changes by at most `L` radians per pixel, with `L (2 D + 1) < π`, comes out
right up to one whole number of turns, whatever the segments. -/
theorem C132_slope (U : Unwrapper) (hU : FollowsGentle U) (R : SmallRemover)
    (interp : Arr2 ℝ → Arr2 Bool → Res (ℕ → ℕ → ℝ)) (hI : TakesNearest interp)
    (phase amplitude : Arr2 ℝ) (nbin : ℤ) (fill : ℝ) (minSize : ℤ) (useMask : Bool) (bMask selem : Option (Arr2 Bool))
    (u : Arr2 ℝ) (me : Arr2 Bool)
    (h : unwrapSegments U R interp phase amplitude nbin fill minSize useMask bMask selem = .ok (u, me))
    (θ : ℤ × ℤ → ℝ) (D L : ℝ) (hL : 0 ≤ L) (hw : WrapsOf phase me θ)
    (hgap : ∀ i j : ℕ, i < phase.nr → j < phase.nc → ∃ t, Used me t ∧ pixDist (i, j) t ≤ D)
    (hsl : ∀ s t, |θ s - θ t| ≤ L * pixDist s t) (hLD : L * (2 * D + 1) < Real.pi) :
    ∃ k : ℤ, ∀ x, Used me x → u.px x.1 x.2 = some (θ x + 2 * Real.pi * k) :=
  C132_segments U hU R interp hI phase amplitude nbin fill minSize useMask bMask selem u me h θ D hw hgap
    fun s t _ _ hd => lt_of_le_of_lt ((hsl s t).trans (mul_le_mul_of_nonneg_left hd hL)) hLD

/-! ### The contracts can be met -/

open Classical in
/-- An unwrapper that returns a gentle phase wherever pixels touch, and leaves lonely pixels as they are. -/
noncomputable def refRun (p : Arr2 ℝ) (m : Arr2 Bool) : Arr2 ℝ :=
  if h : ∃ θ, WrapsOf p m θ ∧ Gentle m θ then
    ⟨p.nr, p.nc, fun i j => if Used m (i, j) ∧ ∃ y, Used m y ∧ EdgeAdj (i, j) y then Classical.choose h (i, j)
      else p.val i j⟩
  else p

theorem refRun_px (p : Arr2 ℝ) (m : Arr2 Bool) (h : ∃ θ, WrapsOf p m θ ∧ Gentle m θ) (x : ℤ × ℤ) (v : ℝ)
    (hv : p.px x.1 x.2 = some v) :
    (Used m x ∧ (∃ y, Used m y ∧ EdgeAdj x y) → (refRun p m).px x.1 x.2 = some (Classical.choose h x)) ∧
    (¬ (Used m x ∧ ∃ y, Used m y ∧ EdgeAdj x y) → (refRun p m).px x.1 x.2 = some v) := by
  classical
  have hin := (Arr2.px_isSome p x.1 x.2).mp (by rw [hv]; rfl)
  have hxe : (((x.1.toNat : ℕ) : ℤ), ((x.2.toNat : ℕ) : ℤ)) = x := by
    ext
    · exact Int.toNat_of_nonneg hin.1.1
    · exact Int.toNat_of_nonneg hin.2.1
  have hpx : (refRun p m).px x.1 x.2 = some (if Used m x ∧ ∃ y, Used m y ∧ EdgeAdj x y then Classical.choose h x
      else v) := by
    unfold refRun
    rw [dif_pos h, Arr2.px_of_inB _ (by simp only; exact hin)]
    rw [Arr2.px_of_inB p hin] at hv
    simp only
    rw [hxe, Option.some.inj hv]
  exact ⟨fun hc => by rw [hpx, if_pos hc], fun hc => by rw [hpx, if_neg hc]⟩

noncomputable def refUnwrapper : Unwrapper where
  run := refRun
  nr_eq p m := by unfold refRun; split <;> rfl
  nc_eq p m := by unfold refRun; split <;> rfl
  congr p m i j v hm hv := by
    by_cases h : ∃ θ, WrapsOf p m θ ∧ Gentle m θ
    · by_cases hc : Used m (i, j) ∧ ∃ y, Used m y ∧ EdgeAdj (i, j) y
      · obtain ⟨k, hk⟩ := (Classical.choose_spec h).1 (i, j) v hm hv
        refine ⟨-k, ?_⟩
        rw [(refRun_px p m h (i, j) v hv).1 hc, hk]
        congr 1
        push_cast
        ring
      · exact ⟨0, by rw [(refRun_px p m h (i, j) v hv).2 hc]; simp⟩
    · refine ⟨0, ?_⟩
      unfold refRun
      rw [dif_neg h, hv]
      simp

theorem refUnwrapper_follows : FollowsGentle refUnwrapper := by
  intro p m θ hr hc hw hg x y hx hy he v w hv hw'
  have h : ∃ θ, WrapsOf p m θ ∧ Gentle m θ := ⟨θ, hw, hg⟩
  obtain ⟨gw, gg⟩ := Classical.choose_spec h
  have hpx : ∀ z, Used m z → ∃ v, p.px z.1 z.2 = some v := by
    intro z hz
    have := used_inB hz
    rw [hr, hc] at this
    exact ⟨_, Arr2.px_of_inB p this⟩
  obtain ⟨a, ha⟩ := hpx x hx
  obtain ⟨b, hb⟩ := hpx y hy
  have e1 := (refRun_px p m h x a ha).1 ⟨hx, y, hy, he⟩
  have e2 := (refRun_px p m h y b hb).1 ⟨hy, x, hx, edgeAdj_symm he⟩
  have e1' : v = Classical.choose h x := by
    rw [show refUnwrapper.run p m = refRun p m from rfl, e1] at hv; exact (Option.some.inj hv).symm
  have e2' : w = Classical.choose h y := by
    rw [show refUnwrapper.run p m = refRun p m from rfl, e2] at hw'; exact (Option.some.inj hw').symm
  obtain ⟨k1, q1⟩ := gw x a hx ha
  obtain ⟨k2, q2⟩ := hw x a hx ha
  obtain ⟨k3, q3⟩ := gw y b hy hb
  obtain ⟨k4, q4⟩ := hw y b hy hb
  have n1 := abs_lt.mp (gg x y hx hy he)
  have n2 := abs_lt.mp (hg x y hx hy he)
  have hk : (k2 - k1) - (k4 - k3) = 0 := by
    have hpi := Real.pi_pos
    have : Classical.choose h x - Classical.choose h y - (θ x - θ y) = 2 * Real.pi * (((k2 - k1) - (k4 - k3) : ℤ) : ℝ) := by
      push_cast; linarith
    have u1 : (((k2 - k1) - (k4 - k3) : ℤ) : ℝ) < 1 := by nlinarith
    have u2 : (-1 : ℝ) < (((k2 - k1) - (k4 - k3) : ℤ) : ℝ) := by nlinarith
    have u1' : (k2 - k1) - (k4 - k3) < 1 := by exact_mod_cast u1
    have u2' : -1 < (k2 - k1) - (k4 - k3) := by exact_mod_cast u2
    omega
  have hk' : (((k2 - k1) - (k4 - k3) : ℤ) : ℝ) = 0 := by rw [hk]; simp
  push_cast at hk'
  rw [e1', e2']
  nlinarith

open Classical in
/-- An interpolator that takes the value at a nearest pixel of the mask and raises if there is none. -/
noncomputable def refNearest (phase : Arr2 ℝ) (me : Arr2 Bool) : Res (ℕ → ℕ → ℝ) :=
  if h : ∃ g : ℕ → ℕ → ℝ, ∀ i j : ℕ, i < phase.nr → j < phase.nc →
      ∃ s, Used me s ∧ phase.px s.1 s.2 = some (g i j) ∧ ∀ t, Used me t → pixDist (i, j) s ≤ pixDist (i, j) t
  then .ok (Classical.choose h) else .error .valueError

theorem refNearest_takes : TakesNearest refNearest := by
  intro phase me f hf
  unfold refNearest at hf
  split_ifs at hf with h
  injection hf with hf
  rw [← hf]
  exact Classical.choose_spec h

/-- It raises only if the mask is empty. -/
theorem refNearest_returns (phase : Arr2 ℝ) (me : Arr2 Bool) (hr : me.nr = phase.nr) (hc : me.nc = phase.nc)
    (hne : ∃ t, Used me t) : ∃ f, refNearest phase me = .ok f := by
  classical
  have hs : ∀ i j : ℕ, ∃ v, ∃ s, Used me s ∧ phase.px s.1 s.2 = some v ∧
      ∀ t, Used me t → pixDist (i, j) s ≤ pixDist (i, j) t := by
    intro i j
    let F : Finset (ℤ × ℤ) := ((Finset.Ico (0 : ℤ) me.nr) ×ˢ (Finset.Ico (0 : ℤ) me.nc)).filter (Used me)
    have hF : ∀ t, t ∈ F ↔ Used me t := by
      intro t
      simp only [F, Finset.mem_filter, Finset.mem_product, Finset.mem_Ico]
      exact ⟨fun h => h.2, fun h => ⟨used_inB h, h⟩⟩
    obtain ⟨t0, ht0⟩ := hne
    obtain ⟨s, hsF, hmin⟩ := F.exists_min_image (pixDist (i, j)) ⟨t0, (hF t0).mpr ht0⟩
    have hus := (hF s).mp hsF
    have hin := used_inB hus
    rw [hr, hc] at hin
    exact ⟨_, s, hus, Arr2.px_of_inB phase hin, fun t ht => hmin t ((hF t).mpr ht)⟩
  choose g hg using hs
  unfold refNearest
  rw [dif_pos ⟨g, fun i j _ _ => hg i j⟩]
  exact ⟨_, rfl⟩

/-! ### Two segments: `unwrap` alone can leave a turn between them, `unwrap_segments` cannot -/

/-- Three pixels in a row, the middle one under a strut. -/
def strutMask : Arr2 Bool := Arr2.ofFn 1 3 fun _ j => decide (j ≠ 1)

/-- The true phase: 3 radians on the left segment, `2 π - 3` (about 3.28) on the right one. -/
noncomputable def strutPhase (x : ℤ × ℤ) : ℝ := if x.2 = 0 then 3 else 2 * Real.pi - 3

/-- What is measured: 3 and -3 radians. -/
def strutMeasured : Arr2 ℝ := Arr2.ofFn 1 3 fun _ j => if j = 0 then 3 else if j = 1 then 0 else -3

theorem strut_used (x : ℤ × ℤ) : Used strutMask x ↔ x = (0, 0) ∨ x = (0, 2) := by
  obtain ⟨i, j⟩ := x
  unfold Used strutMask
  rw [Arr2.px_ofFn]
  constructor
  · intro h
    split_ifs at h with hin
    simp only [Option.some.injEq, decide_eq_true_eq] at h
    simp only [Prod.mk.injEq]
    omega
  · rintro (h | h) <;> simp only [Prod.mk.injEq] at h <;> obtain ⟨rfl, rfl⟩ := h <;> simp

theorem strut_wraps : WrapsOf strutMeasured strutMask strutPhase := by
  intro x v hx hv
  rcases (strut_used x).mp hx with rfl | rfl
  · refine ⟨0, ?_⟩
    simp [strutMeasured, Arr2.px_ofFn] at hv
    simp [strutPhase, ← hv]
  · refine ⟨-1, ?_⟩
    simp [strutMeasured, Arr2.px_ofFn] at hv
    simp [strutPhase, ← hv]
    ring

theorem strut_near (s t : ℤ × ℤ) (hs : Used strutMask s) (ht : Used strutMask t) :
    |strutPhase s - strutPhase t| < Real.pi := by
  have h1 := Real.pi_gt_three
  have h2 := Real.pi_lt_d2
  rcases (strut_used s).mp hs with rfl | rfl <;> rcases (strut_used t).mp ht with rfl | rfl <;>
    rw [abs_lt] <;> simp only [strutPhase] <;> constructor <;> norm_num <;> linarith

theorem strut_gap (i j : ℕ) (hi : i < 1) (hj : j < 3) : ∃ t, Used strutMask t ∧ pixDist (i, j) t ≤ 1 := by
  obtain rfl : i = 0 := by omega
  rcases (show j = 0 ∨ j = 1 ∨ j = 2 by omega) with rfl | rfl | rfl
  · exact ⟨(0, 0), (strut_used _).mpr (Or.inl rfl), by norm_num [pixDist]⟩
  · exact ⟨(0, 0), (strut_used _).mpr (Or.inl rfl), by norm_num [pixDist]⟩
  · exact ⟨(0, 2), (strut_used _).mpr (Or.inr rfl), by norm_num [pixDist]⟩

/-- The trivial remover of small objects. -/
def keepAll : SmallRemover := ⟨fun m _ => m, fun _ _ => rfl, fun _ _ => rfl, fun _ _ _ _ h => h⟩

theorem strut_checks : unwrapChecks strutMeasured (Arr2.full 1 3 1) 21 64 (some strutMask) = .ok () :=
  (unwrapChecks_ok _ _ _ _ _).mpr ⟨⟨rfl, rfl⟩, fun _ _ => by simp [Arr2.full], by norm_num, by norm_num,
    by intro b hb; injection hb with hb; subst hb; exact ⟨rfl, rfl⟩⟩

/-- **C132.** The bridge over the gaps is needed: on the same data `unwrap` with the mask may leave a whole turn between two
segments, although the unwrapper meets its contract and all hypotheses of `C132_segments` hold with `D = 1`. -/
theorem C132_unwrap_alone : ∃ u, unwrap refUnwrapper keepAll strutMeasured (Arr2.full 1 3 1) 21 0 64 true (some strutMask)
      = .ok (u, strutMask) ∧
    WrapsOf strutMeasured strutMask strutPhase ∧
    (∀ i j : ℕ, i < 1 → j < 3 → ∃ t, Used strutMask t ∧ pixDist (i, j) t ≤ 1) ∧
    (∀ s t, Used strutMask s → Used strutMask t → |strutPhase s - strutPhase t| < Real.pi) ∧
    ¬ ∃ k : ℤ, ∀ x, Used strutMask x → u.px x.1 x.2 = some (strutPhase x + 2 * Real.pi * k) := by
  obtain ⟨u, m, h⟩ := C15_unwrap_returns refUnwrapper keepAll strutMeasured (Arr2.full 1 3 1) 21 0 64 true
    (some strutMask) ⟨rfl, rfl⟩ (fun _ _ => by simp [Arr2.full]) (by norm_num) (by norm_num)
    (by intro b hb; injection hb with hb; subst hb; exact ⟨rfl, rfl⟩) (Or.inl (by simp))
  have hm : m = strutMask := (C15_unwrap _ _ _ _ _ _ _ _ _ _ _ h).2.1 _ rfl
  subst hm
  refine ⟨u, h, strut_wraps, strut_gap, strut_near, ?_⟩
  rintro ⟨k, hk⟩
  have hg : ∃ θ, WrapsOf strutMeasured strutMask θ ∧ Gentle strutMask θ :=
    ⟨strutPhase, strut_wraps, fun x y hx hy _ => strut_near x y hx hy⟩
  have hu : u = fillOutside (refRun strutMeasured strutMask) strutMask 0 := by
    unfold unwrap at h
    rw [strut_checks] at h
    simp only [chooseMask] at h
    injection h with h
    exact (Prod.mk.inj h).1.symm
  have hlone : ∀ x, Used strutMask x → ¬ (Used strutMask x ∧ ∃ y, Used strutMask y ∧ EdgeAdj x y) := by
    rintro x hx ⟨_, y, hy, he⟩
    unfold EdgeAdj at he
    rcases (strut_used x).mp hx with rfl | rfl <;> rcases (strut_used y).mp hy with rfl | rfl <;> simp at he
  have hpx : ∀ x v, Used strutMask x → strutMeasured.px x.1 x.2 = some v → u.px x.1 x.2 = some v := by
    intro x v hx hv
    rw [hu, px_fillOutside, (refRun_px _ _ hg x v hv).2 (hlone x hx), show strutMask.px x.1 x.2 = some true from hx]
    simp
  have u0 : Used strutMask (0, 0) := (strut_used _).mpr (Or.inl rfl)
  have u2 : Used strutMask (0, 2) := (strut_used _).mpr (Or.inr rfl)
  have a0 := hk (0, 0) u0
  have a2 := hk (0, 2) u2
  rw [hpx (0, 0) 3 u0 (by simp [strutMeasured, Arr2.px_ofFn])] at a0
  rw [hpx (0, 2) (-3) u2 (by simp [strutMeasured, Arr2.px_ofFn])] at a2
  simp only [strutPhase, Option.some.injEq] at a0 a2
  norm_num at a0 a2
  have := Real.pi_pos
  subst a0
  rw [Int.cast_zero, mul_zero] at a2
  linarith

/-- The same data through `unwrap_segments`: it returns, and the hypotheses of `C132_segments` hold, so both
segments come out with the same number of turns. -/
example : ∃ u, unwrapSegments refUnwrapper keepAll refNearest strutMeasured (Arr2.full 1 3 1) 21 0 64 true
      (some strutMask) none = .ok (u, strutMask) ∧
    ∃ k : ℤ, ∀ x, Used strutMask x → u.px x.1 x.2 = some (strutPhase x + 2 * Real.pi * k) := by
  have hret : ∃ u, unwrapSegments refUnwrapper keepAll refNearest strutMeasured (Arr2.full 1 3 1) 21 0 64 true
      (some strutMask) none = .ok (u, strutMask) := by
    obtain ⟨f, hf⟩ := refNearest_returns strutMeasured strutMask rfl rfl ⟨(0, 0), (strut_used _).mpr (Or.inl rfl)⟩
    unfold unwrapSegments
    rw [strut_checks]
    simp only [chooseMask, erodeOpt, hf]
    obtain ⟨u, m, hu⟩ := C15_unwrap_returns refUnwrapper keepAll
      (⟨strutMeasured.nr, strutMeasured.nc, fun i j => if strutMask.px (i : ℕ) (j : ℕ) = some true
        then strutMeasured.val i j else f i j⟩ : Arr2 ℝ) (Arr2.full 1 3 1) 21 0 64 false none ⟨rfl, rfl⟩
      (fun _ _ => by simp [Arr2.full]) (by norm_num) (by norm_num) (by intro b hb; cases hb) (Or.inr rfl)
    rw [hu]
    exact ⟨_, rfl⟩
  obtain ⟨u, hu⟩ := hret
  exact ⟨u, hu, C132_segments refUnwrapper refUnwrapper_follows keepAll refNearest refNearest_takes _ _ _ _ _ _ _ _ _ _ hu
    strutPhase 1 strut_wraps strut_gap fun s t hs ht _ => strut_near s t hs ht⟩

end Coralign.Props
