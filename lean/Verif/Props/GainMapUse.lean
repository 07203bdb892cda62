import Verif.Lemmas.GainMapForm
import Mathlib.Tactic.IntervalCases

/-!
# C127, C128 and C112 for the gain map: one actuator at a time, units, noise, and the sign of the gain
-/

namespace Coralign.Props

open Coralign

section
variable {K : Type} [Field K] [LinearOrder K] [IsStrictOrderedRing K]

/-! ### C127: actuators do not influence each other -/

/-- A grid that was filled without an error holds the value of every cell. -/
theorem fillGrid_inv (nr nc : ℕ) (f : ℕ → ℕ → Res K) (o : Arr2 K) (h : fillGrid nr nc f = .ok o) :
    o.nr = nr ∧ o.nc = nc ∧ ∀ i < nr, ∀ j < nc, ∃ x, f i j = .ok x ∧ o.px (i : ℤ) (j : ℤ) = some x := by
  classical
  have hall : ∀ i j, ∃ x, i < nr → j < nc → f i j = .ok x := by
    intro i j
    by_cases hij : i < nr ∧ j < nc
    · cases hf : f i j with
      | ok x => exact ⟨x, fun _ _ => rfl⟩
      | error e =>
        obtain ⟨_, _, _, _, e', _, he⟩ := fillGrid_err nr nc f ⟨i, hij.1, j, hij.2, e, hf⟩
        rw [h] at he
        cases he
    · exact ⟨0, fun h1 h2 => absurd ⟨h1, h2⟩ hij⟩
  choose v hv using hall
  rw [fillGrid_ok nr nc f v fun r hr c hc => hv r c hr hc] at h
  obtain rfl := Except.ok.inj h
  refine ⟨rfl, rfl, fun i hi j hj => ⟨v i j, hv i j hi hj, ?_⟩⟩
  rw [show Arr2.ofFn nr nc v = ⟨nr, nc, fun a b => v a b⟩ from rfl, px_fin _ i j hi hj]

omit [Field K] [LinearOrder K] [IsStrictOrderedRing K] in
theorem px_none_ge (o : Arr2 K) (i j : ℕ) (h : ¬ (i < o.nr ∧ j < o.nc)) : o.px (i : ℤ) (j : ℤ) = none := by
  rw [Arr2.px_eq_none]
  rintro ⟨⟨_, h1⟩, _, h2⟩
  exact h ⟨by exact_mod_cast h1, by exact_mod_cast h2⟩

omit [Field K] [LinearOrder K] [IsStrictOrderedRing K] in
theorem lt_of_px {o : Arr2 K} {i j : ℕ} {x : K} (h : o.px (i : ℤ) (j : ℤ) = some x) : i < o.nr ∧ j < o.nc := by
  by_contra hc
  rw [px_none_ge o i j hc] at h
  cases h

theorem heights_inv (I : CubicInterp K) (m : Arr2 K) (cube : Arr3 K) (v : List K) (o : Arr2 K)
    (h : heightsForCommands I m cube v = .ok o) : o.nr = m.nr ∧ o.nc = m.nc ∧
      ∀ i < m.nr, ∀ j < m.nc, ∃ col x, cube.column i j = .ok col ∧ I.run v col ((m.px (i : ℤ) (j : ℤ)).getD 0) = .ok x ∧
        o.px (i : ℤ) (j : ℤ) = some x := by
  unfold heightsForCommands at h
  split_ifs at h
  cases hu : verifyUnique v with
  | error e => rw [hu] at h; cases h
  | ok u =>
    cases hp : verifyPresorted v with
    | error e => rw [hu, hp] at h; cases h
    | ok w =>
      rw [hu, hp] at h
      simp only [bind, Except.bind] at h
      obtain ⟨h1, h2, h3⟩ := fillGrid_inv _ _ _ o h
      refine ⟨h1, h2, fun i hi j hj => ?_⟩
      obtain ⟨x, hx, ho⟩ := h3 i hi j hj
      cases hc : cube.column i j with
      | error e => rw [hc] at hx; cases hx
      | ok col => rw [hc] at hx; exact ⟨col, x, rfl, hx, ho⟩

theorem commands_inv (I : CubicInterp K) (m : Arr2 K) (cube : Arr3 K) (v : List K) (o : Arr2 K)
    (h : commandsForHeights I m cube v = .ok o) : o.nr = m.nr ∧ o.nc = m.nc ∧
      ∀ i < m.nr, ∀ j < m.nc, ∃ col x, cube.column i j = .ok col ∧ I.run col v ((m.px (i : ℤ) (j : ℤ)).getD 0) = .ok x ∧
        o.px (i : ℤ) (j : ℤ) = some x := by
  unfold commandsForHeights at h
  split_ifs at h
  cases hu : verifyUnique v with
  | error e => rw [hu] at h; cases h
  | ok u =>
    cases hp : verifyPresorted v with
    | error e => rw [hu, hp] at h; cases h
    | ok w =>
      rw [hu, hp] at h
      simp only [bind, Except.bind] at h
      obtain ⟨h1, h2, h3⟩ := fillGrid_inv _ _ _ o h
      refine ⟨h1, h2, fun i hi j hj => ?_⟩
      obtain ⟨x, hx, ho⟩ := h3 i hi j hj
      cases hc : cube.column i j with
      | error e => rw [hc] at hx; cases hx
      | ok col => rw [hc] at hx; exact ⟨col, x, rfl, hx, ho⟩

/-- Specification: actuator `(i, j)` has the same calibration in both cubes. -/
def SameCalibration (cube cube' : Arr3 K) (i j : ℕ) : Prop := cube.column i j = cube'.column i j

/-- **C127.** The height of an actuator depends on its own command and its own calibration curve only, whatever the interpolator:
two calls that both return give actuator `(i, j)` the same height if it has the same command and the same calibration in both,
whatever the commands and the calibrations of the other actuators, and even if the arrays differ in size. -/
theorem C127_heights_local (I : CubicInterp K) (m m' : Arr2 K) (cube cube' : Arr3 K) (v : List K) (o o' : Arr2 K)
    (h : heightsForCommands I m cube v = .ok o) (h' : heightsForCommands I m' cube' v = .ok o') (i j : ℕ) (q : K)
    (hq : m.px (i : ℤ) (j : ℤ) = some q) (hq' : m'.px (i : ℤ) (j : ℤ) = some q) (hs : SameCalibration cube cube' i j) :
    ∃ x, o.px (i : ℤ) (j : ℤ) = some x ∧ o'.px (i : ℤ) (j : ℤ) = some x := by
  obtain ⟨_, _, e⟩ := heights_inv I m cube v o h
  obtain ⟨_, _, e'⟩ := heights_inv I m' cube' v o' h'
  obtain ⟨col, x, c1, r1, p1⟩ := e i (lt_of_px hq).1 j (lt_of_px hq).2
  obtain ⟨col', x', c2, r2, p2⟩ := e' i (lt_of_px hq').1 j (lt_of_px hq').2
  unfold SameCalibration at hs
  rw [c1, c2] at hs
  obtain rfl := Except.ok.inj hs
  rw [hq] at r1
  rw [hq', r1] at r2
  obtain rfl := Except.ok.inj r2
  exact ⟨x, p1, p2⟩

/-- **C127.** The command of an actuator depends on its own height and its own calibration curve only. -/
theorem C127_commands_local (I : CubicInterp K) (m m' : Arr2 K) (cube cube' : Arr3 K) (v : List K) (o o' : Arr2 K)
    (h : commandsForHeights I m cube v = .ok o) (h' : commandsForHeights I m' cube' v = .ok o') (i j : ℕ) (q : K)
    (hq : m.px (i : ℤ) (j : ℤ) = some q) (hq' : m'.px (i : ℤ) (j : ℤ) = some q) (hs : SameCalibration cube cube' i j) :
    ∃ x, o.px (i : ℤ) (j : ℤ) = some x ∧ o'.px (i : ℤ) (j : ℤ) = some x := by
  obtain ⟨_, _, e⟩ := commands_inv I m cube v o h
  obtain ⟨_, _, e'⟩ := commands_inv I m' cube' v o' h'
  obtain ⟨col, x, c1, r1, p1⟩ := e i (lt_of_px hq).1 j (lt_of_px hq).2
  obtain ⟨col', x', c2, r2, p2⟩ := e' i (lt_of_px hq').1 j (lt_of_px hq').2
  unfold SameCalibration at hs
  rw [c1, c2] at hs
  obtain rfl := Except.ok.inj hs
  rw [hq] at r1
  rw [hq', r1] at r2
  obtain rfl := Except.ok.inj r2
  exact ⟨x, p1, p2⟩

theorem zipPx_inv (f : K → K → K) (a b o : Arr2 K) (h : zipPx f a b = .ok o) : o.nr = a.nr ∧ o.nc = a.nc ∧
    ∀ i j : ℕ, ∀ x, o.px (i : ℤ) (j : ℤ) = some x → ∃ y z, a.px (i : ℤ) (j : ℤ) = some y ∧ b.px (i : ℤ) (j : ℤ) = some z ∧ x = f y z := by
  obtain ⟨ar, ac, av⟩ := a
  obtain ⟨br, bc, bv⟩ := b
  unfold zipPx at h
  split_ifs at h with hd
  obtain ⟨h1, h2⟩ := hd
  simp only at h1 h2
  subst h1 h2
  obtain rfl := Except.ok.inj h
  refine ⟨rfl, rfl, fun i j x hx => ?_⟩
  obtain ⟨hi, hj⟩ := lt_of_px hx
  simp only at hi hj
  rw [px_fin _ i j hi hj] at hx
  exact ⟨_, _, px_fin _ i j hi hj, px_fin _ i j hi hj, (Option.some.inj hx).symm⟩

/-- **C127.** The change of height of an actuator depends on its own two commands and its own calibration only. -/
theorem C127_delta_local (I : CubicInterp K) (b a b' a' : Arr2 K) (cube cube' : Arr3 K) (v : List K) (o o' : Arr2 K)
    (h : deltaHeights I b a cube v = .ok o) (h' : deltaHeights I b' a' cube' v = .ok o') (i j : ℕ) (p q : K)
    (hp : b.px (i : ℤ) (j : ℤ) = some p) (hp' : b'.px (i : ℤ) (j : ℤ) = some p)
    (hq : a.px (i : ℤ) (j : ℤ) = some q) (hq' : a'.px (i : ℤ) (j : ℤ) = some q) (hs : SameCalibration cube cube' i j) :
    ∃ x, o.px (i : ℤ) (j : ℤ) = some x ∧ o'.px (i : ℤ) (j : ℤ) = some x := by
  have key : ∀ (b a : Arr2 K) (cube : Arr3 K) (o : Arr2 K), deltaHeights I b a cube v = .ok o → ∃ hb ha,
      heightsForCommands I b cube v = .ok hb ∧ heightsForCommands I a cube v = .ok ha ∧ zipPx (fun a b => a - b) ha hb = .ok o := by
    intro b a cube o h
    unfold deltaHeights at h
    split_ifs at h
    cases h1 : heightsForCommands I b cube v with
    | error e => rw [h1] at h; cases h
    | ok hb =>
      cases h2 : heightsForCommands I a cube v with
      | error e => rw [h1, h2] at h; cases h
      | ok ha => rw [h1, h2] at h; exact ⟨hb, ha, rfl, rfl, h⟩
  obtain ⟨hb, ha, e1, e2, e3⟩ := key b a cube o h
  obtain ⟨hb', ha', f1, f2, f3⟩ := key b' a' cube' o' h'
  obtain ⟨x, x1, x2⟩ := C127_heights_local I b b' cube cube' v hb hb' e1 f1 i j p hp hp' hs
  obtain ⟨y, y1, y2⟩ := C127_heights_local I a a' cube cube' v ha ha' e2 f2 i j q hq hq' hs
  obtain ⟨g1, g2, g3⟩ := zipPx_inv _ _ _ _ e3
  obtain ⟨k1, k2, k3⟩ := zipPx_inv _ _ _ _ f3
  have in1 := lt_of_px y1
  have in2 := lt_of_px y2
  have s1 : ∃ z, o.px (i : ℤ) (j : ℤ) = some z := Option.isSome_iff_exists.mp ((Arr2.px_isSome _ _ _).mpr (by rw [g1, g2]; omega))
  have s2 : ∃ z, o'.px (i : ℤ) (j : ℤ) = some z := Option.isSome_iff_exists.mp ((Arr2.px_isSome _ _ _).mpr (by rw [k1, k2]; omega))
  obtain ⟨z, hz⟩ := s1
  obtain ⟨z', hz'⟩ := s2
  obtain ⟨u, w, u1, w1, ez⟩ := g3 i j z hz
  obtain ⟨u', w', u1', w1', ez'⟩ := k3 i j z' hz'
  rw [y1] at u1
  rw [x1] at w1
  rw [y2] at u1'
  rw [x2] at w1'
  obtain rfl := Option.some.inj u1
  obtain rfl := Option.some.inj w1
  obtain rfl := Option.some.inj u1'
  obtain rfl := Option.some.inj w1'
  exact ⟨z, hz, by rw [hz', ez', ez]⟩

/-- What the clipped request of `startingCommands` is, actuator by actuator. -/
theorem starting_inv (I : CubicInterp K) (flat delta : Arr2 K) (cube : Arr3 K) (v : List K) (o : Arr2 K)
    (h : startingCommands I flat delta cube v = .ok o) : ∃ fh clipped : Arr2 K, heightsForCommands I flat cube v = .ok fh ∧
      commandsForHeights I clipped cube v = .ok o ∧ clipped.nr = fh.nr ∧ clipped.nc = fh.nc ∧
      ∀ i j : ℕ, ∀ x, clipped.px (i : ℤ) (j : ℤ) = some x → ∃ col lo hi y d, cube.column i j = .ok col ∧ col.head? = some lo ∧
        col.getLast? = some hi ∧ fh.px (i : ℤ) (j : ℤ) = some y ∧ delta.px (i : ℤ) (j : ℤ) = some d ∧ x = clipHeight lo hi (y + d) := by
  unfold startingCommands at h
  split_ifs at h
  cases h1 : heightsForCommands I flat cube v with
  | error e => rw [h1] at h; cases h
  | ok fh =>
    cases h2 : zipPx (fun a b => a + b) fh delta with
    | error e =>
      rw [h1] at h
      change (do
        let start ← zipPx (fun a b => a + b) fh delta
        _) = _ at h
      rw [h2] at h; cases h
    | ok start =>
      rw [h1] at h
      change (do
        let start ← zipPx (fun a b => a + b) fh delta
        _) = _ at h
      rw [h2] at h
      obtain ⟨z1, z2, z3⟩ := zipPx_inv _ _ _ _ h2
      by_cases hns : 0 < cube.ns
      · have s1 : cube.slice (cube.ns - 1) = some ⟨cube.nr, cube.nc, fun i j => cube.val ⟨cube.ns - 1, by omega⟩ i j⟩ := by
          unfold Arr3.slice; rw [dif_pos (by omega)]
        have s0 : cube.slice 0 = some ⟨cube.nr, cube.nc, fun i j => cube.val ⟨0, hns⟩ i j⟩ := by
          unfold Arr3.slice; rw [dif_pos hns]
        change (match cube.slice (cube.ns - 1), cube.slice 0 with
          | some mx, some mn => _
          | _, _ => _) = _ at h
        rw [s1, s0] at h
        simp only at h
        split_ifs at h with hd
        refine ⟨fh, _, rfl, h, z1, z2, fun i j x hx => ?_⟩
        obtain ⟨hi, hj⟩ := lt_of_px hx
        simp only at hi hj
        rw [px_fin _ i j hi hj] at hx
        have hi' : i < cube.nr := hd.1 ▸ hi
        have hj' : j < cube.nc := hd.2 ▸ hj
        obtain ⟨e1, e2⟩ := ofFn_head_last (fun k => cube.val k ⟨i, hi'⟩ ⟨j, hj'⟩) hns
        obtain ⟨y, d, hy, hd', e⟩ := z3 i j (start.val ⟨i, hi⟩ ⟨j, hj⟩) (px_fin (n := start.nr) (m := start.nc) start.val i j hi hj)
        refine ⟨_, _, _, y, d, column_ok cube hi' hj', e1, e2, hy, hd', ?_⟩
        rw [← Option.some.inj hx, e, px_fin _ i j hi' hj', px_fin _ i j hi' hj']
        rfl
      · exfalso
        have s0 : cube.slice 0 = none := by unfold Arr3.slice; rw [dif_neg hns]
        change (match cube.slice (cube.ns - 1), cube.slice 0 with
          | some mx, some mn => _
          | _, _ => _) = _ at h
        rw [s0] at h
        cases hh : cube.slice (cube.ns - 1) <;> rw [hh] at h <;> cases h

/-- **C127.** The starting command of an actuator depends on its own flat command, its own requested height change and its own calibration
only: an actuator that is clipped to its range does not move its neighbours. -/
theorem C127_starting_local (I : CubicInterp K) (f d f' d' : Arr2 K) (cube cube' : Arr3 K) (v : List K) (o o' : Arr2 K)
    (h : startingCommands I f d cube v = .ok o) (h' : startingCommands I f' d' cube' v = .ok o') (i j : ℕ) (p q : K)
    (hp : f.px (i : ℤ) (j : ℤ) = some p) (hp' : f'.px (i : ℤ) (j : ℤ) = some p)
    (hq : d.px (i : ℤ) (j : ℤ) = some q) (hq' : d'.px (i : ℤ) (j : ℤ) = some q) (hs : SameCalibration cube cube' i j) :
    ∃ x, o.px (i : ℤ) (j : ℤ) = some x ∧ o'.px (i : ℤ) (j : ℤ) = some x := by
  obtain ⟨fh, c, e1, e2, e3, e4, e5⟩ := starting_inv I f d cube v o h
  obtain ⟨fh', c', g1, g2, g3, g4, g5⟩ := starting_inv I f' d' cube' v o' h'
  obtain ⟨y, y1, y2⟩ := C127_heights_local I f f' cube cube' v fh fh' e1 g1 i j p hp hp' hs
  have in1 := lt_of_px y1
  have in2 := lt_of_px y2
  have s1 : ∃ z, c.px (i : ℤ) (j : ℤ) = some z := Option.isSome_iff_exists.mp ((Arr2.px_isSome _ _ _).mpr (by rw [e3, e4]; omega))
  have s2 : ∃ z, c'.px (i : ℤ) (j : ℤ) = some z := Option.isSome_iff_exists.mp ((Arr2.px_isSome _ _ _).mpr (by rw [g3, g4]; omega))
  obtain ⟨z, hz⟩ := s1
  obtain ⟨z', hz'⟩ := s2
  obtain ⟨col, lo, hi, u, w, a1, a2, a3, a4, a5, a6⟩ := e5 i j z hz
  obtain ⟨col', lo', hi', u', w', b1, b2, b3, b4, b5, b6⟩ := g5 i j z' hz'
  have hs' := hs
  unfold SameCalibration at hs'
  rw [a1, b1] at hs'
  obtain rfl := Except.ok.inj hs'
  obtain rfl := Option.some.inj (a2.symm.trans b2)
  obtain rfl := Option.some.inj (a3.symm.trans b3)
  obtain rfl := Option.some.inj (a4.symm.trans y1)
  obtain rfl := Option.some.inj (b4.symm.trans y2)
  obtain rfl := Option.some.inj (a5.symm.trans hq)
  obtain rfl := Option.some.inj (b5.symm.trans hq')
  rw [← a6] at b6
  obtain rfl := b6
  exact C127_commands_local I c c' cube cube' v o o' e2 g2 i j z' hz hz' hs

theorem gainCube_inv (cube : Arr3 K) (v : List K) (g : Arr3 K) (h : gainCube cube v = .ok g) : ∃ d m, diffAndMean v = .ok (d, m) ∧
    g.nr = cube.nr ∧ g.nc = cube.nc ∧ ∀ i j hh, cube.column i j = .ok hh →
      g.column i j = .ok ((List.range (hh.length - 1)).map fun k => (hh.getD (k + 1) 0 - hh.getD k 0) / d.getD k 0) := by
  unfold gainCube at h
  cases hd : diffAndMean v with
  | error e => rw [hd] at h; cases h
  | ok dm =>
    obtain ⟨d, m⟩ := dm
    rw [hd] at h
    change (if h : d.length + 1 = cube.ns then _ else _) = _ at h
    split_ifs at h with hl
    obtain rfl := Except.ok.inj h
    refine ⟨d, m, rfl, rfl, rfl, fun i j hh hcol => ?_⟩
    have hlen := column_length hcol
    unfold Arr3.column at hcol
    split_ifs at hcol with hb
    rw [column_ok (⟨cube.ns - 1, cube.nr, cube.nc, _⟩ : Arr3 K) hb.1 hb.2, ← Except.ok.inj hcol]
    congr 1
    refine List.ext_getElem (by simp) fun k hk1 hk2 => ?_
    simp only [List.length_ofFn] at hk1
    have q1 : k + 1 < cube.ns := by omega
    have q2 : k < cube.ns := by omega
    simp [List.getElem?_ofFn, q1, q2]

/-- **C127.** The gain of an actuator depends on its own command and its own calibration only. -/
theorem C127_gain_local (m m' : Arr2 K) (cube cube' : Arr3 K) (v : List K) (o o' : Arr2 K)
    (h : gainMap m cube v = .ok o) (h' : gainMap m' cube' v = .ok o') (i j : ℕ) (q : K)
    (hq : m.px (i : ℤ) (j : ℤ) = some q) (hq' : m'.px (i : ℤ) (j : ℤ) = some q) (hs : SameCalibration cube cube' i j) :
    ∃ x, o.px (i : ℤ) (j : ℤ) = some x ∧ o'.px (i : ℤ) (j : ℤ) = some x := by
  have key : ∀ (m : Arr2 K) (cube : Arr3 K) (o : Arr2 K), gainMap m cube v = .ok o → m.px (i : ℤ) (j : ℤ) = some q →
      ∃ d t hh x, diffAndMean v = .ok (d, t) ∧ cube.column i j = .ok hh ∧
        linInterp t ((List.range (hh.length - 1)).map fun k => (hh.getD (k + 1) 0 - hh.getD k 0) / d.getD k 0) q = .ok x ∧
        o.px (i : ℤ) (j : ℤ) = some x := by
    intro m cube o h hq
    unfold gainMap at h
    cases hg : gainCube cube v with
    | error e =>
      rw [hg] at h
      cases hd : diffAndMean v <;> rw [hd] at h <;> cases h
    | ok g =>
      obtain ⟨d, t, hd, g1, g2, g3⟩ := gainCube_inv cube v g hg
      rw [hd, hg] at h
      change (if m.nr ≠ g.nc then _ else if m.nc ≠ g.nr then _ else _) = _ at h
      split_ifs at h with c1 c2
      obtain ⟨_, _, hall⟩ := fillGrid_inv _ _ _ o h
      obtain ⟨x, hx, ho⟩ := hall i (lt_of_px hq).1 j (lt_of_px hq).2
      cases hc : cube.column i j with
      | error e =>
        exfalso
        have : g.column i j = .error .indexError := by
          unfold Arr3.column at hc ⊢
          split_ifs at hc with hb
          exact dif_neg (by rw [g1, g2]; exact hb)
        rw [this] at hx
        cases hx
      | ok hh =>
        rw [g3 i j hh hc, hq] at hx
        exact ⟨d, t, hh, x, hd, rfl, hx, ho⟩
  obtain ⟨d, t, hh, x, e1, e2, e3, e4⟩ := key m cube o h hq
  obtain ⟨d', t', hh', x', f1, f2, f3, f4⟩ := key m' cube' o' h' hq'
  unfold SameCalibration at hs
  rw [e2, f2] at hs
  obtain rfl := Except.ok.inj hs
  obtain ⟨rfl, rfl⟩ := Prod.mk.inj (Except.ok.inj (e1.symm.trans f1))
  rw [e3] at f3
  obtain rfl := Except.ok.inj f3
  exact ⟨x, e4, f4⟩

/-! ### C127: units -/

omit [LinearOrder K] [IsStrictOrderedRing K] in
theorem getD_affine (v : List K) (a b : K) (k : ℕ) (hk : k < v.length) :
    (v.map fun c => a * c + b).getD k 0 = a * v.getD k 0 + b := by
  simp [List.getD_eq_getElem?_getD, List.getElem?_map, List.getElem?_eq_getElem hk]

omit [LinearOrder K] [IsStrictOrderedRing K] in
theorem midCmd_affine (v : List K) (s t : K) (k : ℕ) (hk : k + 1 < v.length) (h2 : (2 : K) ≠ 0) :
    midCmd (v.map fun c => s * c + t) k = s * midCmd v k + t := by
  unfold midCmd
  rw [getD_affine v s t k (by omega), getD_affine v s t (k + 1) hk]
  field_simp
  ring

omit [LinearOrder K] [IsStrictOrderedRing K] in
theorem secant_affine (v h : List K) (s t a b : K) (k : ℕ) (hk : k + 1 < v.length) (hl : h.length = v.length) :
    secant (v.map fun c => s * c + t) (h.map fun x => a * x + b) k = a / s * secant v h k := by
  unfold secant
  rw [getD_affine v s t k (by omega), getD_affine v s t (k + 1) hk, getD_affine h a b k (by omega), getD_affine h a b (k + 1) (by omega),
    show a * h.getD (k + 1) 0 + b - (a * h.getD k 0 + b) = a * (h.getD (k + 1) 0 - h.getD k 0) by ring,
    show s * v.getD (k + 1) 0 + t - (s * v.getD k 0 + t) = s * (v.getD (k + 1) 0 - v.getD k 0) by ring, mul_div_mul_comm]

theorem blendAt_affine (v : List K) (s t q : K) (hs : 0 < s) : blendAt (v.map fun c => s * c + t) (s * q + t) = blendAt v q := by
  have hm : midList (v.map fun c => s * c + t) = (midList v).map fun c => s * c + t := by
    refine List.ext_getElem (by simp [midList_length]) fun k h1 h2 => ?_
    have hk : k + 1 < v.length := by rw [List.length_map, midList_length] at h2; omega
    have e := midCmd_affine v s t k hk two_ne_zero
    simpa [midList] using e
  unfold blendAt
  rw [hm, searchSorted_map (midList v) q (fun c => s * c + t) (fun a b hab => by
    have := mul_lt_mul_of_pos_left hab hs
    simpa using this), List.length_map]

theorem blendWeight_affine (v : List K) (s t q : K) (hs : 0 < s) (h3 : 3 ≤ v.length) :
    blendWeight (v.map fun c => s * c + t) (s * q + t) = blendWeight v q := by
  have hk := blendAt_lt h3 q
  unfold blendWeight
  rw [blendAt_affine v s t q hs, midCmd_affine v s t _ (by omega) two_ne_zero, midCmd_affine v s t _ (by omega) two_ne_zero,
    show s * q + t - (s * midCmd v (blendAt v q) + t) = s * (q - midCmd v (blendAt v q)) by ring,
    show s * midCmd v (blendAt v q + 1) + t - (s * midCmd v (blendAt v q) + t) = s * (midCmd v (blendAt v q + 1) - midCmd v (blendAt v q)) by ring,
    mul_div_mul_left _ _ hs.ne']

/-- **C127.** The gain map carries the units of height per command and no zero points.  If the commands are re-expressed on the scale
`s·c + t` (`s > 0`) and the heights of actuator `(i, j)` as `a·h + b`, its gain is multiplied by `a/s`; neither the zero of the commands nor
the resting height of the actuator matters. -/
theorem C127_gain_units (n : ℕ) (cube cube' : Arr3 K) (v : List K) (s t : K) (hs : 0 < s) (h : GainData cube v n)
    (h' : GainData cube' (v.map fun c => s * c + t) n) (cmd cmd' : Fin n → Fin n → K) (i j : Fin n) (a b : K) (hh : List K)
    (hcol : cube.column i j = .ok hh) (hcol' : cube'.column i j = .ok (hh.map fun x => a * x + b)) (hq : cmd' i j = s * cmd i j + t) :
    ∃ o o' : Fin n → Fin n → K, gainMap ⟨n, n, cmd⟩ cube v = .ok ⟨n, n, o⟩ ∧
      gainMap ⟨n, n, cmd'⟩ cube' (v.map fun c => s * c + t) = .ok ⟨n, n, o'⟩ ∧ o' i j = a / s * o i j := by
  obtain ⟨o, ho, hall⟩ := gain_form n cube v h cmd
  obtain ⟨o', ho', hall'⟩ := gain_form n cube' _ h' cmd'
  refine ⟨o, o', ho, ho', ?_⟩
  obtain ⟨hl, e⟩ := hall i j hh hcol
  obtain ⟨hl', e'⟩ := hall' i j _ hcol'
  have hk := blendAt_lt h.three (cmd i j)
  rw [e', e, hq, blendAt_affine v s t _ hs, blendWeight_affine v s t _ hs h.three,
    secant_affine v hh s t a b _ (by omega) hl, secant_affine v hh s t a b _ (by omega) hl]
  ring

/-! ### C128: the sign of the gain -/

/-- **C128.** Between the middle of the first and the middle of the last reference interval, the gain of an actuator lies between the least and
the greatest of its measured average slopes.  So it is positive there for an actuator that always rises with the command.
Partial: nearer the ends of the reference commands this fails, see `C128_wrong_sign`. -/
theorem C128_between_midpoints_partial (n : ℕ) (cube : Arr3 K) (v : List K) (h : GainData cube v n) (cmd : Fin n → Fin n → K) (i j : Fin n)
    (hh : List K) (hcol : cube.column i j = .ok hh) (lo hi : K)
    (hs : ∀ k, k + 1 < v.length → lo * (v.getD (k + 1) 0 - v.getD k 0) ≤ hh.getD (k + 1) 0 - hh.getD k 0 ∧
      hh.getD (k + 1) 0 - hh.getD k 0 ≤ hi * (v.getD (k + 1) 0 - v.getD k 0))
    (h0 : v.getD 1 0 + v.getD 0 0 ≤ 2 * cmd i j) (h1 : 2 * cmd i j ≤ v.getD (v.length - 1) 0 + v.getD (v.length - 2) 0) :
    ∃ o : Fin n → Fin n → K, gainMap ⟨n, n, cmd⟩ cube v = .ok ⟨n, n, o⟩ ∧ lo ≤ o i j ∧ o i j ≤ hi := by
  obtain ⟨o, ho, hall⟩ := gain_form n cube v h cmd
  refine ⟨o, ho, ?_⟩
  obtain ⟨hl, e⟩ := hall i j hh hcol
  have h3 := h.three
  have hk := blendAt_lt h3 (cmd i j)
  have sl : ∀ k, k + 1 < v.length → lo ≤ secant v hh k ∧ secant v hh k ≤ hi := by
    intro k hk
    have hp := pairwise_getD h.inc (Nat.lt_succ_self k) hk
    rw [Nat.succ_eq_add_one] at hp
    obtain ⟨q1, q2⟩ := hs k hk
    unfold secant
    exact ⟨(le_div_iff₀ (by linarith)).mpr q1, (div_le_iff₀ (by linarith)).mpr q2⟩
  obtain ⟨w0, w1⟩ := blendWeight_unit (cmd i j) h.inc h3 (by unfold midCmd; simp only [zero_add]; linarith) (by
    unfold midCmd
    rw [show v.length - 2 + 1 = v.length - 1 by omega]
    linarith)
  obtain ⟨a1, a2⟩ := sl (blendAt v (cmd i j)) (by omega)
  obtain ⟨b1, b2⟩ := sl (blendAt v (cmd i j) + 1) (by omega)
  rw [e]
  constructor <;> nlinarith

/-- **C128.** Anywhere within the reference commands the gain leaves the range `[lo, hi]` of the measured slopes by less than its width: it is
positive for every actuator whose greatest slope is at most twice its least.
Partial: without that condition it may be negative, see `C128_wrong_sign`. -/
theorem C128_in_range_partial (n : ℕ) (cube : Arr3 K) (v : List K) (h : GainData cube v n) (cmd : Fin n → Fin n → K) (i j : Fin n)
    (hh : List K) (hcol : cube.column i j = .ok hh) (lo hi : K)
    (hs : ∀ k, k + 1 < v.length → lo * (v.getD (k + 1) 0 - v.getD k 0) ≤ hh.getD (k + 1) 0 - hh.getD k 0 ∧
      hh.getD (k + 1) 0 - hh.getD k 0 ≤ hi * (v.getD (k + 1) 0 - v.getD k 0))
    (h0 : v.getD 0 0 ≤ cmd i j) (h1 : cmd i j ≤ v.getD (v.length - 1) 0) :
    ∃ o : Fin n → Fin n → K, gainMap ⟨n, n, cmd⟩ cube v = .ok ⟨n, n, o⟩ ∧ lo - (hi - lo) ≤ o i j ∧ o i j ≤ hi + (hi - lo) := by
  obtain ⟨o, ho, hall⟩ := gain_form n cube v h cmd
  refine ⟨o, ho, ?_⟩
  obtain ⟨hl, e⟩ := hall i j hh hcol
  have h3 := h.three
  have hk := blendAt_lt h3 (cmd i j)
  have sl : ∀ k, k + 1 < v.length → lo ≤ secant v hh k ∧ secant v hh k ≤ hi := by
    intro k hk
    have hp := pairwise_getD h.inc (Nat.lt_succ_self k) hk
    rw [Nat.succ_eq_add_one] at hp
    obtain ⟨q1, q2⟩ := hs k hk
    unfold secant
    exact ⟨(le_div_iff₀ (by linarith)).mpr q1, (div_le_iff₀ (by linarith)).mpr q2⟩
  obtain ⟨w0, w1⟩ := blendWeight_range (cmd i j) h.inc h3 h0 h1
  obtain ⟨a1, a2⟩ := sl (blendAt v (cmd i j)) (by omega)
  obtain ⟨b1, b2⟩ := sl (blendAt v (cmd i j) + 1) (by omega)
  rw [e]
  generalize blendWeight v (cmd i j) = w at *
  generalize secant v hh (blendAt v (cmd i j)) = p at *
  generalize secant v hh (blendAt v (cmd i j) + 1) = q at *
  rcases le_total 0 w with hw | hw
  · rcases le_total w 1 with hw1 | hw1
    · constructor <;> nlinarith
    · constructor <;> nlinarith
  · constructor <;> nlinarith

/-! ### C112: noise in the calibration -/

omit [LinearOrder K] [IsStrictOrderedRing K] in
theorem secant_sub (v h h' : List K) (k : ℕ) : secant v h' k - secant v h k =
    ((h'.getD (k + 1) 0 - h.getD (k + 1) 0) - (h'.getD k 0 - h.getD k 0)) / (v.getD (k + 1) 0 - v.getD k 0) := by
  unfold secant
  rw [← sub_div]
  congr 1
  ring

/-- **C112** for the gain map.  If the calibrated heights of an actuator are known to within `ε` and neighbouring reference commands are at least
`Δ` apart, its gain is off by at most `2ε/Δ` between the first and last mid-point of the reference commands, and by at most `6ε/Δ` anywhere
within the reference commands. -/
theorem C112_gain_map (n : ℕ) (cube cube' : Arr3 K) (v : List K) (h : GainData cube v n) (h' : GainData cube' v n)
    (cmd : Fin n → Fin n → K) (i j : Fin n) (hh hh' : List K) (hcol : cube.column i j = .ok hh) (hcol' : cube'.column i j = .ok hh')
    (ε Δ : K) (hΔ : 0 < Δ) (hstep : ∀ k, k + 1 < v.length → Δ ≤ v.getD (k + 1) 0 - v.getD k 0)
    (hε : ∀ k, k < v.length → |hh'.getD k 0 - hh.getD k 0| ≤ ε)
    (h0 : v.getD 0 0 ≤ cmd i j) (h1 : cmd i j ≤ v.getD (v.length - 1) 0) :
    ∃ o o' : Fin n → Fin n → K, gainMap ⟨n, n, cmd⟩ cube v = .ok ⟨n, n, o⟩ ∧ gainMap ⟨n, n, cmd⟩ cube' v = .ok ⟨n, n, o'⟩ ∧
      |o' i j - o i j| ≤ 6 * ε / Δ ∧
      (v.getD 1 0 + v.getD 0 0 ≤ 2 * cmd i j → 2 * cmd i j ≤ v.getD (v.length - 1) 0 + v.getD (v.length - 2) 0 →
        |o' i j - o i j| ≤ 2 * ε / Δ) := by
  obtain ⟨o, ho, hall⟩ := gain_form n cube v h cmd
  obtain ⟨o', ho', hall'⟩ := gain_form n cube' v h' cmd
  refine ⟨o, o', ho, ho', ?_⟩
  obtain ⟨hl, e⟩ := hall i j hh hcol
  obtain ⟨hl', e'⟩ := hall' i j hh' hcol'
  have h3 := h.three
  have hk := blendAt_lt h3 (cmd i j)
  have hε0 : 0 ≤ ε := (abs_nonneg _).trans (hε 0 (by omega))
  have sl : ∀ k, k + 1 < v.length → |secant v hh' k - secant v hh k| ≤ 2 * ε / Δ := by
    intro k hk
    have hp := hstep k hk
    rw [secant_sub, abs_div, abs_of_pos (lt_of_lt_of_le hΔ hp)]
    have hb : |hh'.getD (k + 1) 0 - hh.getD (k + 1) 0 - (hh'.getD k 0 - hh.getD k 0)| ≤ 2 * ε := by
      have := abs_sub (hh'.getD (k + 1) 0 - hh.getD (k + 1) 0) (hh'.getD k 0 - hh.getD k 0)
      have q1 := hε (k + 1) hk
      have q2 := hε k (by omega)
      linarith
    exact div_le_div₀ (by linarith) hb hΔ hp
  obtain ⟨a1, a2⟩ := abs_le.mp (sl (blendAt v (cmd i j)) (by omega))
  obtain ⟨b1, b2⟩ := abs_le.mp (sl (blendAt v (cmd i j) + 1) (by omega))
  obtain ⟨w0, w1⟩ := blendWeight_range (cmd i j) h.inc h3 h0 h1
  have hd : o' i j - o i j = (1 - blendWeight v (cmd i j)) * (secant v hh' (blendAt v (cmd i j)) - secant v hh (blendAt v (cmd i j))) +
      blendWeight v (cmd i j) * (secant v hh' (blendAt v (cmd i j) + 1) - secant v hh (blendAt v (cmd i j) + 1)) := by
    rw [e, e']; ring
  have hB : 6 * ε / Δ = 3 * (2 * ε / Δ) := by ring
  have hBn : 0 ≤ 2 * ε / Δ := div_nonneg (by linarith) hΔ.le
  rw [hd, hB, abs_le, abs_le]
  have hu : v.getD 1 0 + v.getD 0 0 ≤ 2 * cmd i j → 2 * cmd i j ≤ v.getD (v.length - 1) 0 + v.getD (v.length - 2) 0 →
      0 ≤ blendWeight v (cmd i j) ∧ blendWeight v (cmd i j) ≤ 1 := by
    intro g0 g1
    refine blendWeight_unit (cmd i j) h.inc h3 (by unfold midCmd; simp only [zero_add]; linarith) ?_
    unfold midCmd
    rw [show v.length - 2 + 1 = v.length - 1 by omega]
    linarith
  clear hd e e' sl hall hall' ho ho' hε hstep hB
  generalize blendWeight v (cmd i j) = w at *
  generalize secant v hh' (blendAt v (cmd i j)) - secant v hh (blendAt v (cmd i j)) = p at *
  generalize secant v hh' (blendAt v (cmd i j) + 1) - secant v hh (blendAt v (cmd i j) + 1) = q at *
  generalize 2 * ε / Δ = B at *
  constructor
  · rcases le_total 0 w with hw | hw
    · rcases le_total w 1 with hw1 | hw1
      · constructor <;> nlinarith
      · constructor <;> nlinarith
    · constructor <;> nlinarith
  · intro g0 g1
    obtain ⟨u0, u1⟩ := hu g0 g1
    constructor <;> nlinarith

end

/-! ### C128: the counterexample, and concrete data that meet the hypotheses -/

/-- One actuator that rises with the command throughout: 1 nm over the first volt, 10 nm over the second. -/
def steepActuator : Arr3 ℚ := ⟨3, 1, 1, fun k _ _ => ![0, 1, 11] k⟩

theorem steep_data : GainData steepActuator [0, 1, 2] 1 := ⟨by decide +kernel, by decide, rfl, rfl, rfl⟩

theorem steep_column : steepActuator.column 0 0 = .ok [0, 1, 11] := by
  rw [column_ok steepActuator (i := 0) (j := 0) (by decide) (by decide)]
  rfl

/-- **C128 fails near the ends of the reference commands.**  There the straight line through the two outermost slopes is continued beyond them:
for an actuator that rises with the command throughout, `compute_gainmap` returns a negative gain at the lowest reference command. -/
theorem C128_wrong_sign : ∃ (cube : Arr3 ℚ) (v : List ℚ) (cmd : Arr2 ℚ) (o : Arr2 ℚ), GainData cube v 1 ∧
    (∃ hh, cube.column 0 0 = .ok hh ∧ hh.Pairwise (· < ·)) ∧ cmd.px 0 0 = v.head? ∧
    gainMap cmd cube v = .ok o ∧ ∃ x, o.px 0 0 = some x ∧ x < 0 := by
  obtain ⟨o, ho, hall⟩ := gain_form 1 steepActuator [0, 1, 2] steep_data (fun _ _ => 0)
  refine ⟨steepActuator, [0, 1, 2], ⟨1, 1, fun _ _ => 0⟩, _, steep_data, ⟨_, steep_column, by decide +kernel⟩, rfl, ho, o 0 0, rfl, ?_⟩
  obtain ⟨_, e⟩ := hall 0 0 [0, 1, 11] steep_column
  rw [e]
  decide +kernel

/-- A calibration with a mild curvature, for which all the hypotheses hold. -/
def mildActuator : Arr3 ℚ := ⟨4, 1, 1, fun k _ _ => ![0, 10, 21, 33] k⟩

example : ∃ o : Fin 1 → Fin 1 → ℚ, gainMap ⟨1, 1, fun _ _ => 0⟩ mildActuator [0, 1, 2, 3] = .ok ⟨1, 1, o⟩ ∧ 10 - (12 - 10) ≤ o 0 0 ∧
    o 0 0 ≤ 12 + (12 - 10) :=
  C128_in_range_partial 1 mildActuator [0, 1, 2, 3] ⟨by decide +kernel, by decide, rfl, rfl, rfl⟩ _ 0 0 [0, 10, 21, 33]
    (by rw [show ((0 : Fin 1) : ℕ) = 0 from rfl, column_ok mildActuator (i := 0) (j := 0) (by decide) (by decide)]; rfl) 10 12
    (by
      intro k hk
      have : k < 3 := by simp at hk; omega
      interval_cases k <;> decide +kernel) (by decide +kernel) (by decide +kernel)

example : ∃ o : Fin 1 → Fin 1 → ℚ, gainMap ⟨1, 1, fun _ _ => 2⟩ mildActuator [0, 1, 2, 3] = .ok ⟨1, 1, o⟩ ∧ 10 ≤ o 0 0 ∧ o 0 0 ≤ 12 :=
  C128_between_midpoints_partial 1 mildActuator [0, 1, 2, 3] ⟨by decide +kernel, by decide, rfl, rfl, rfl⟩ _ 0 0 [0, 10, 21, 33]
    (by rw [show ((0 : Fin 1) : ℕ) = 0 from rfl, column_ok mildActuator (i := 0) (j := 0) (by decide) (by decide)]; rfl) 10 12
    (by
      intro k hk
      have : k < 3 := by simp at hk; omega
      interval_cases k <;> decide +kernel) (by decide +kernel) (by decide +kernel)

/-- The units of C127 on the same actuator: millivolts and an offset of the zero, heights in picometres. -/
example : GainData mildActuator [0, 1, 2, 3] 1 ∧
    GainData (⟨4, 1, 1, fun k i j => 1000 * mildActuator.val k i j + 7⟩ : Arr3 ℚ) (([0, 1, 2, 3] : List ℚ).map fun c => 1000 * c + 5) 1 :=
  ⟨⟨by decide +kernel, by decide, rfl, rfl, rfl⟩, ⟨by decide +kernel, by decide, rfl, rfl, rfl⟩⟩

/-- Two calibrations that share actuator (0, 0) and differ in the others. -/
def twoByTwo (x : ℚ) : Arr3 ℚ := ⟨4, 2, 2, fun k i j => if i = 0 ∧ j = 0 then ![0, 10, 21, 33] k else x * ![0, 1, 5, 7] k⟩

theorem twoByTwo_same (x y : ℚ) : SameCalibration (twoByTwo x) (twoByTwo y) 0 0 := by
  unfold SameCalibration
  rw [column_ok (twoByTwo x) (i := 0) (j := 0) (show 0 < 2 by decide) (show 0 < 2 by decide),
    column_ok (twoByTwo y) (i := 0) (j := 0) (show 0 < 2 by decide) (show 0 < 2 by decide)]
  rfl

/-- The locality theorem at work: other calibrations and other commands elsewhere, the same height at actuator (0, 0). -/
example (I : CubicInterp ℚ) : ∃ o o' : Arr2 ℚ,
    heightsForCommands I ⟨2, 2, fun _ _ => 1⟩ (twoByTwo 1) [0, 1, 2, 3] = .ok o ∧
    heightsForCommands I ⟨2, 2, fun i j => 1 + (i : ℕ) / 2 + (j : ℕ) / 3⟩ (twoByTwo 4) [0, 1, 2, 3] = .ok o' ∧
    ∃ x, o.px ((0 : ℕ) : ℤ) ((0 : ℕ) : ℤ) = some x ∧ o'.px ((0 : ℕ) : ℤ) ((0 : ℕ) : ℤ) = some x := by
  have r : ∀ x, RefData (twoByTwo x) [0, 1, 2, 3] 2 := fun x => ⟨by decide +kernel, by decide, rfl, rfl, rfl⟩
  obtain ⟨o, h, _⟩ := heights_eq I 2 (fun _ _ => 1) _ _ (r 1) (fun _ _ => ⟨⟨0, by decide +kernel, by decide +kernel⟩, 3, by decide +kernel, by decide +kernel⟩)
  obtain ⟨o', h', _⟩ := heights_eq I 2 (fun i j => 1 + (i : ℕ) / 2 + (j : ℕ) / 3) _ _ (r 4) (fun i j => by
    refine ⟨⟨0, by decide +kernel, ?_⟩, 3, by decide +kernel, ?_⟩
    · revert i j; decide +kernel
    · revert i j; decide +kernel)
  exact ⟨_, _, h, h', C127_heights_local I _ _ _ _ _ _ _ h h' 0 0 1 rfl (by decide +kernel) (twoByTwo_same 1 4)⟩

example : GainData (twoByTwo 1) [0, 1, 2, 3] 2 ∧ GainData (twoByTwo 4) [0, 1, 2, 3] 2 :=
  ⟨⟨by decide +kernel, by decide, rfl, rfl, rfl⟩, ⟨by decide +kernel, by decide, rfl, rfl, rfl⟩⟩

/-- The hypotheses of `C112_gain_map` on the mild actuator with each height known to 1/10. -/
example : (∀ k, k + 1 < ([0, 1, 2, 3] : List ℚ).length → (1 : ℚ) ≤ ([0, 1, 2, 3] : List ℚ).getD (k + 1) 0 - ([0, 1, 2, 3] : List ℚ).getD k 0) ∧
    ∀ k, k < ([0, 1, 2, 3] : List ℚ).length →
      |([1 / 10, 10, 209 / 10, 331 / 10] : List ℚ).getD k 0 - ([0, 10, 21, 33] : List ℚ).getD k 0| ≤ 1 / 10 := by
  constructor
  · intro k hk
    have : k < 3 := by simp at hk; omega
    interval_cases k <;> decide +kernel
  · intro k hk
    have : k < 4 := by simpa using hk
    interval_cases k <;> decide +kernel

end Coralign.Props
