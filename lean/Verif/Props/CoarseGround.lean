import Verif.Props.CoarseFinds

/-!
# Property C134, continued: a pupil on a lit ground
-/

namespace Coralign.Props

open Coralign Finset

/-- Specification: a picture of level `p` everywhere, and of level `p + c` in the disc of diameter `d` centred `(a, b)` pixels from the centre
pixel, which lies in the picture. -/
structure LitGround (img : Arr2 ℝ) (d p c : ℝ) (a b : ℤ) : Prop where
  bright : ∀ i j : ℤ, (((j - (img.nc / 2 : ℕ) - a : ℤ) : ℝ)) ^ 2 + (((i - (img.nr / 2 : ℕ) - b : ℤ) : ℝ)) ^ 2 ≤ (d / 2) ^ 2 →
    img.px i j = some (p + c)
  ground : ∀ i j, ¬ InBeam img d a b (i : Fin img.nr) (j : Fin img.nc) → img.val i j = p

open scoped Classical in
/-- The number of pixels of the picture in a trial disc. -/
noncomputable def beamCount (img : Arr2 ℝ) (nBeam : ℝ) (x y : ℤ) : ℕ :=
  (univ.filter fun q : Fin img.nr × Fin img.nc => InBeam img nBeam x y q.1 q.2).card

/-- The picture without its ground. -/
def offGround (img : Arr2 ℝ) (p : ℝ) : Arr2 ℝ := ⟨img.nr, img.nc, fun i j => img.val i j - p⟩

/-- Without its ground, such a picture is an ideal pupil. -/
theorem ground_split (img : Arr2 ℝ) (d p c : ℝ) (a b : ℤ) (h : LitGround img d p c a b) :
    IdealPupil (offGround img p) d c a b := by
  refine ⟨fun i j hij => ?_, fun i j hij => ?_⟩
  · have hpx := h.bright i j hij
    obtain ⟨⟨b1, b2⟩, b3, b4⟩ := (Arr2.px_isSome img _ _).mp (by rw [hpx]; rfl)
    rw [Arr2.px_of_inB img ⟨⟨b1, b2⟩, b3, b4⟩] at hpx
    rw [Arr2.px_of_inB (offGround img p) ⟨⟨b1, b2⟩, b3, b4⟩]
    have := Option.some.inj hpx
    simp only [offGround, this, add_sub_cancel_left]
  · show img.val i j - p = 0
    rw [h.ground i j hij, sub_self]

theorem ground_sum (img : Arr2 ℝ) (nBeam p : ℝ) (x y : ℤ) :
    beamSum img nBeam x y = p * beamCount img nBeam x y + beamSum (offGround img p) nBeam x y := by
  classical
  have e : (beamCount img nBeam x y : ℝ) = ∑ i : Fin img.nr, ∑ j : Fin img.nc, if InBeam img nBeam x y i j then (1 : ℝ) else 0 := by
    unfold beamCount
    rw [card_filter, ← Fintype.sum_prod_type' (fun i j => if InBeam img nBeam x y (i : Fin img.nr) (j : Fin img.nc) then (1 : ℝ) else 0)]
    push_cast
    refine sum_congr rfl fun q _ => ?_
    congr
  rw [e, mul_sum]
  unfold beamSum
  show _ = _ + ∑ i : Fin img.nr, ∑ j : Fin img.nc, if InBeam (offGround img p) nBeam x y i j then img.val i j - p else 0
  rw [← sum_add_distrib]
  refine sum_congr rfl fun i _ => ?_
  rw [mul_sum, ← sum_add_distrib]
  refine sum_congr rfl fun j _ => ?_
  have he : InBeam (offGround img p) nBeam x y i j ↔ InBeam img nBeam x y i j := Iff.rfl
  by_cases hi : InBeam img nBeam x y i j
  · rw [if_pos hi, if_pos hi, if_pos (he.mpr hi)]; ring
  · rw [if_neg hi, if_neg hi, if_neg fun hh => hi (he.mp hh)]; ring

/-- `u'` lies between `u` and `t`. -/
def Nearer (t u u' : ℤ) : Prop := u ≤ u' ∧ u' ≤ t ∨ t ≤ u' ∧ u' ≤ u

/-- A trial disc that is nearer to the pupil on both axes loses no more pixels over the edge of the picture. -/
theorem count_nearer (img : Arr2 ℝ) (nBeam : ℝ) (hb : 0 < nBeam) (a b : ℤ)
    (hx : 0 ≤ (img.nc / 2 : ℕ) + a - ⌊nBeam / 2⌋ ∧ (img.nc / 2 : ℕ) + a + ⌊nBeam / 2⌋ < img.nc)
    (hy : 0 ≤ (img.nr / 2 : ℕ) + b - ⌊nBeam / 2⌋ ∧ (img.nr / 2 : ℕ) + b + ⌊nBeam / 2⌋ < img.nr)
    (x y x' y' : ℤ) (h1 : Nearer a x x') (h2 : Nearer b y y') : beamCount img nBeam x y ≤ beamCount img nBeam x' y' := by
  classical
  obtain ⟨hk0, -, hk⟩ := floor_sq (show 0 ≤ nBeam / 2 by linarith)
  generalize ⌊nBeam / 2⌋ = k at hx hy hk hk0
  have small : ∀ u v : ℤ, u ^ 2 + v ^ 2 ≤ ⌊(nBeam / 2) ^ 2⌋ → -k ≤ u ∧ u ≤ k := by
    intro u v h
    have h3 : u ^ 2 < (k + 1) ^ 2 := by nlinarith [sq_nonneg v]
    have := abs_lt.mp (abs_lt_of_sq_lt_sq h3 (by omega))
    omega
  have key : ∀ q : Fin img.nr × Fin img.nc, InBeam img nBeam x y q.1 q.2 →
      (0 ≤ ((q.2 : ℕ) : ℤ) + (x' - x) ∧ ((q.2 : ℕ) : ℤ) + (x' - x) < img.nc) ∧
      (0 ≤ ((q.1 : ℕ) : ℤ) + (y' - y) ∧ ((q.1 : ℕ) : ℤ) + (y' - y) < img.nr) := by
    intro q hq
    rw [inBeam_int] at hq
    have s1 := small _ _ hq
    have s2 := small _ _ (by rw [add_comm]; exact hq)
    have l1 := q.1.isLt
    have l2 := q.2.isLt
    rcases h1 with h1 | h1 <;> rcases h2 with h2 | h2 <;> omega
  unfold beamCount
  refine card_le_card_of_injOn
    (fun q => if hq : InBeam img nBeam x y q.1 q.2 then
      (⟨(((q.1 : ℕ) : ℤ) + (y' - y)).toNat, by have := key q hq; omega⟩, ⟨(((q.2 : ℕ) : ℤ) + (x' - x)).toNat, by have := key q hq; omega⟩) else q)
    ?_ ?_
  · intro q hq
    rw [mem_coe, mem_filter] at hq
    simp only [dif_pos hq.2]
    rw [mem_coe, mem_filter]
    have hk' := key q hq.2
    have hb' := hq.2
    rw [inBeam_int] at hb'
    refine ⟨mem_univ _, (inBeam_int _ _ _ _ _ _).mpr ?_⟩
    simp only
    rw [Int.toNat_of_nonneg hk'.1.1, Int.toNat_of_nonneg hk'.2.1,
      show ((q.2 : ℕ) : ℤ) + (x' - x) - (img.nc / 2 : ℕ) - x' = ((q.2 : ℕ) : ℤ) - (img.nc / 2 : ℕ) - x by ring,
      show ((q.1 : ℕ) : ℤ) + (y' - y) - (img.nr / 2 : ℕ) - y' = ((q.1 : ℕ) : ℤ) - (img.nr / 2 : ℕ) - y by ring]
    exact hb'
  · intro q hq r hr he
    rw [mem_coe, mem_filter] at hq hr
    simp only [dif_pos hq.2, dif_pos hr.2] at he
    have k1 := key q hq.2
    have k2 := key r hr.2
    have e1 := congrArg (fun z : Fin img.nr × Fin img.nc => ((z.1 : ℕ), (z.2 : ℕ))) he
    simp only [Prod.mk.injEq] at e1
    ext <;> omega

/-- Among the grid offsets on the side of `v` there is one less than a step away from `t`. -/
theorem grid_nearer (radius step t v : ℤ) (hs : 1 ≤ step) (hv : OnGrid radius step v) (hl : -radius ≤ t) (hu : t ≤ radius) :
    ∃ g, OnGrid radius step g ∧ |g - t| ≤ step - 1 ∧ Nearer t v g := by
  obtain ⟨n, rfl, hn⟩ := hv
  have h1 := Int.emod_add_mul_ediv (t + radius) step
  have h2 := Int.emod_nonneg (t + radius) (show step ≠ 0 by omega)
  have h3 := Int.emod_lt_of_pos (t + radius) (show 0 < step by omega)
  have h4 : 0 ≤ (t + radius) / step := Int.ediv_nonneg (by omega) (by omega)
  generalize (t + radius) % step = r at *
  generalize (t + radius) / step = q at *
  have e : ((q.toNat : ℕ) : ℤ) = q := Int.toNat_of_nonneg h4
  rcases le_or_gt (-radius + n * step) t with hle | hgt
  · refine ⟨t - r, ⟨q.toNat, by rw [e]; linarith, by omega⟩, ?_, Or.inl ⟨?_, by omega⟩⟩
    · rw [show t - r - t = -r by ring, abs_neg, abs_of_nonneg h2]; omega
    · have : (n : ℤ) < q + 1 := by
        by_contra hc
        push Not at hc
        nlinarith
      have : (n : ℤ) ≤ q := by omega
      nlinarith
  · rcases eq_or_lt_of_le h2 with hr | hr
    · refine ⟨t, ⟨q.toNat, by rw [e]; linarith, hu⟩, by rw [sub_self, abs_zero]; omega, Or.inr ⟨le_rfl, hgt.le⟩⟩
    · have hq : q + 1 ≤ (n : ℤ) := by
        by_contra hc
        push Not at hc
        have : (n : ℤ) ≤ q := by omega
        nlinarith
      have hle : t - r + step ≤ -radius + n * step := by nlinarith
      refine ⟨t - r + step, ⟨q.toNat + 1, by push_cast; rw [e]; linarith, by omega⟩, ?_, Or.inr ⟨by omega, hle⟩⟩
      rw [show t - r + step - t = step - r by ring, abs_of_nonneg (by omega)]; omega

theorem loop_lit (img : Arr2 ℝ) (nBeam shrink c : ℝ) (hb : 0 < nBeam) (hs : 1 < shrink) (hc : 0 < c) (a b N : ℤ) (F : ℤ → ℤ → ℝ)
    (hF : ∀ x y x' y', Nearer a x x' → Nearer b y y' → F x y ≤ F x' y')
    (h : ∀ x y, |beamSum img nBeam x y - (F x y + c * ((lens N ⌊(nBeam / 2) ^ 2⌋ (x - a, y - b)).card : ℝ))| < c / 2)
    (m : ℤ) (h0 : TwoRadii N ⌊(nBeam / 2) ^ 2⌋ m m)
    (n : ℕ) : ∀ (est : Option (ℤ × ℤ)) (xs ys radius step : ℤ), 0 < radius → 1 ≤ step → step ≤ n → step ≤ m + 1 →
      |a - xs| ≤ radius → |b - ys| ≤ radius → ∀ fuel, n + 1 ≤ fuel →
      ∃ steps, coarseLoop img nBeam shrink fuel est xs ys radius step = some (.ok ((a, b), steps)) := by
  have hmono : ∀ x y x' y', F x' y' ≤ F x y → beamSum img nBeam x y ≤ beamSum img nBeam x' y' →
      (lens N ⌊(nBeam / 2) ^ 2⌋ (x - a, y - b)).card ≤ (lens N ⌊(nBeam / 2) ^ 2⌋ (x' - a, y' - b)).card := by
    intro x y x' y' hf hle
    have h1 := abs_lt.mp (h x y)
    have h2 := abs_lt.mp (h x' y')
    have h3 : c * ((lens N ⌊(nBeam / 2) ^ 2⌋ (x - a, y - b)).card : ℝ) <
        c * (((lens N ⌊(nBeam / 2) ^ 2⌋ (x' - a, y' - b)).card : ℝ) + 1) := by
      rw [mul_add, mul_one]; linarith [h1.1, h1.2, h2.1, h2.2]
    have h4 := lt_of_mul_lt_mul_left h3 hc.le
    have h5 : (lens N ⌊(nBeam / 2) ^ 2⌋ (x - a, y - b)).card < (lens N ⌊(nBeam / 2) ^ 2⌋ (x' - a, y' - b)).card + 1 := by exact_mod_cast h4
    omega
  induction n with
  | zero => intro _ _ _ _ step _ h1 h2; omega
  | succ n ih =>
    intro est xs ys radius step hr h1 h2 h2m hx hy fuel hf
    rw [abs_le] at hx hy
    obtain ⟨fuel, rfl⟩ : ∃ f, fuel = f + 1 := ⟨fuel - 1, by omega⟩
    obtain ⟨hn1, hn2⟩ := nextStep_spec shrink hs step h1
    obtain ⟨x, y, M, hok, ox, oy, hbest⟩ := C52_best img nBeam xs ys radius step hb hr (by omega)
    obtain ⟨gx, gx0, gx1, gx2⟩ := grid_nearer radius step (a - xs) (x - xs) h1 ox (by omega) (by omega)
    obtain ⟨gy, gy0, gy1, gy2⟩ := grid_nearer radius step (b - ys) (y - ys) h1 oy (by omega) (by omega)
    have hcard := hmono _ _ _ _
      (hF x y (gx + xs) (gy + ys) (by unfold Nearer at gx2 ⊢; omega) (by unfold Nearer at gy2 ⊢; omega))
      (hbest (gx + xs) (gy + ys) (by rw [add_sub_cancel_right]; exact gx0) (by rw [add_sub_cancel_right]; exact gy0)).1
    rw [abs_le] at gx1 gy1
    unfold coarseLoop
    rw [if_neg (by omega), hok]
    simp only
    by_cases hone : step = 1
    · have ex : gx + xs - a = 0 := by omega
      have ey : gy + ys - b = 0 := by omega
      rw [ex, ey] at hcard
      obtain ⟨hv1, hv2⟩ := lens_nested _ _ m m h0 _ hcard
      rw [sub_self, abs_zero, abs_nonpos_iff] at hv1 hv2
      simp only at hv1 hv2
      rw [hn1 hone, show x = a by omega, show y = b by omega]
      obtain ⟨fuel, rfl⟩ : ∃ f, fuel = f + 1 := ⟨fuel - 1, by omega⟩
      unfold coarseLoop
      simp only [if_true]
      exact ⟨[step], rfl⟩
    · obtain ⟨⟨v1, v2⟩, v3, v4⟩ := lens_round _ _ m m step h0 (by omega) _ _
        ⟨by rw [abs_le]; simp only; omega, by rw [abs_le]; simp only; omega⟩
        ⟨by rw [abs_le]; simp only; omega, by rw [abs_le]; simp only; omega⟩ hcard
      rw [abs_le] at v1 v3
      simp only at v1 v3
      obtain ⟨-, l1, l2⟩ := hn2 hone
      obtain ⟨steps, hst⟩ := ih (some (x, y)) x y (2 * step) (nextStep shrink step) (by omega) l1 (by omega) (by omega)
        (by rw [abs_le]; omega) (by rw [abs_le]; omega) fuel (by omega)
      rw [hst]
      exact ⟨_, rfl⟩

/-- The disc lies in the picture. -/
theorem ideal_inside {img : Arr2 ℝ} {diam c : ℝ} {a b : ℤ} (h : IdealPupil img diam c a b) (hd : 0 < diam) :
    (0 ≤ (img.nc / 2 : ℕ) + a - ⌊diam / 2⌋ ∧ (img.nc / 2 : ℕ) + a + ⌊diam / 2⌋ < img.nc) ∧
    (0 ≤ (img.nr / 2 : ℕ) + b - ⌊diam / 2⌋ ∧ (img.nr / 2 : ℕ) + b + ⌊diam / 2⌋ < img.nr) := by
  obtain ⟨hm0, hm, -⟩ := floor_sq (show 0 ≤ diam / 2 by linarith)
  generalize ⌊diam / 2⌋ = m at hm0 hm ⊢
  have hin : ∀ u v : ℤ, u ^ 2 + v ^ 2 ≤ m ^ 2 → (0 ≤ v + (img.nr / 2 : ℕ) + b ∧ v + (img.nr / 2 : ℕ) + b < img.nr) ∧
      (0 ≤ u + (img.nc / 2 : ℕ) + a ∧ u + (img.nc / 2 : ℕ) + a < img.nc) := by
    intro u v huv
    have hpx := h.bright (v + (img.nr / 2 : ℕ) + b) (u + (img.nc / 2 : ℕ) + a) (by
      rw [show u + (img.nc / 2 : ℕ) + a - (img.nc / 2 : ℕ) - a = u by ring,
        show v + (img.nr / 2 : ℕ) + b - (img.nr / 2 : ℕ) - b = v by ring]
      have := Int.le_floor.mp (le_trans huv hm)
      push_cast at this
      exact this)
    exact (Arr2.px_isSome img _ _).mp (by rw [hpx]; rfl)
  have p1 := hin m 0 (by ring_nf; exact le_rfl)
  have p2 := hin (-m) 0 (by ring_nf; exact le_rfl)
  have p3 := hin 0 m (by ring_nf; exact le_rfl)
  have p4 := hin 0 (-m) (by ring_nf; exact le_rfl)
  omega

/-- **C134.** A uniformly lit ground, however bright, does not mislead the search: with a shrink factor of at least 2 the centre is found
exactly, although trial discs that reach over the edge of the picture collect less of the ground. -/
theorem C134_ground (img pure : Arr2 ℝ) (diam nBeam shrink p c : ℝ) (hdiam : 0 < diam) (hb : 0 < nBeam) (hs : 2 ≤ shrink) (hp : 0 ≤ p)
    (hc : 0 < c) (a b : ℤ) (hn : 2 ≤ img.nr ∨ 2 ≤ img.nc) (h : LitGround pure diam p c a b) (hi : AlmostPicture img pure c)
    (hsz : ⌊diam / 2⌋ = ⌊nBeam / 2⌋) :
    ∃ steps, ∀ fuel, (max 1 ⌊nBeam / shrink⌋).toNat < fuel →
      coarselyLocate fuel img nBeam shrink = some (.ok ((a, b), steps)) := by
  obtain ⟨x, y, steps, -, -, hall⟩ := C51_terminates img nBeam shrink hb (by linarith) hn
  suffices hv : x = a ∧ y = b by
    obtain ⟨rfl, rfl⟩ := hv
    exact ⟨steps, hall⟩
  have hid := ground_split pure diam p c a b h
  have hsum : ∀ x y, |beamSum img nBeam x y - (p * (beamCount pure nBeam x y : ℝ) +
      c * ((lens ⌊(diam / 2) ^ 2⌋ ⌊(nBeam / 2) ^ 2⌋ (x - a, y - b)).card : ℝ))| < c / 2 := by
    intro x y
    rw [← beamSum_lens _ diam nBeam c a b hid, ← ground_sum]
    exact beamSum_almost img pure nBeam c hi x y
  obtain ⟨hm0, hm, hm'⟩ := floor_sq (show 0 ≤ diam / 2 by linarith)
  obtain ⟨hk0, hk, hk'⟩ := floor_sq (show 0 ≤ nBeam / 2 by linarith)
  have hroom := ideal_room hid hdiam
  have hins := ideal_inside hid hdiam
  simp only [offGround] at hroom hins
  rw [← hi.rows, ← hi.cols] at hroom
  rw [hsz] at hins hroom hm hm'
  have hcnt := count_nearer pure nBeam hb a b hins.1 hins.2
  have h0 : TwoRadii ⌊(diam / 2) ^ 2⌋ ⌊(nBeam / 2) ^ 2⌋ ⌊nBeam / 2⌋ ⌊nBeam / 2⌋ := ⟨hk0, hm, hm', hk0, hk, hk', by simp⟩
  have hstep : 1 ≤ max 1 ⌊nBeam / shrink⌋ := le_max_left _ _
  have h2m : max 1 ⌊nBeam / shrink⌋ ≤ ⌊nBeam / 2⌋ + 1 := by
    refine max_le (by omega) (le_trans (Int.floor_mono ?_) (show ⌊nBeam / 2⌋ ≤ ⌊nBeam / 2⌋ + 1 by omega))
    exact div_le_div_of_nonneg_left hb.le (by norm_num) hs
  have hloop : ∃ st, coarselyLocate ((max 1 ⌊nBeam / shrink⌋).toNat + 1) img nBeam shrink = some (.ok ((a, b), st)) := by
    unfold coarselyLocate
    rw [if_neg (not_not.mpr hb), if_neg (by push Not; linarith), if_neg (by push Not; linarith)]
    generalize ⌊nBeam / 2⌋ = k at *
    generalize max 1 ⌊nBeam / shrink⌋ = S at *
    refine loop_lit img nBeam shrink c hb (by linarith) hc a b _ (fun x y => p * (beamCount pure nBeam x y : ℝ)) ?_ hsum k h0 S.toNat none 0 0 _ S
      (by omega) hstep (by omega) h2m (by rw [abs_le]; omega) (by rw [abs_le]; omega) _ le_rfl
    intro x y x' y' g1 g2
    exact mul_le_mul_of_nonneg_left (by exact_mod_cast hcnt x y x' y' g1 g2) hp
  obtain ⟨st, hst⟩ := hloop
  rw [hall _ (Nat.lt_succ_self _)] at hst
  have he := (Prod.mk.inj (Except.ok.inj (Option.some.inj hst))).1
  exact Prod.mk.inj he

/-- A faint disc on a bright ground. -/
noncomputable def faintDisc (nr nc : ℕ) (d p c : ℝ) (a b : ℤ) : Arr2 ℝ :=
  ⟨nr, nc, fun i j => p + (discPicture nr nc d c a b).val i j⟩

theorem faintDisc_lit (nr nc : ℕ) (d p c : ℝ) (a b : ℤ) (h : IdealPupil (discPicture nr nc d c a b) d c a b) :
    LitGround (faintDisc nr nc d p c a b) d p c a b := by
  refine ⟨fun i j hij => ?_, fun i j hij => ?_⟩
  · have hpx := h.bright i j hij
    obtain ⟨⟨b1, b2⟩, b3, b4⟩ := (Arr2.px_isSome (discPicture nr nc d c a b) _ _).mp (by rw [hpx]; rfl)
    rw [Arr2.px_of_inB (discPicture nr nc d c a b) ⟨⟨b1, b2⟩, b3, b4⟩] at hpx
    rw [Arr2.px_of_inB (faintDisc nr nc d p c a b) ⟨⟨b1, b2⟩, b3, b4⟩]
    have := Option.some.inj hpx
    exact congrArg some (congrArg (p + ·) this)
  · show p + (discPicture nr nc d c a b).val i j = p
    rw [h.dark i j hij, add_zero]

/-- `C134_ground`: a disc one part in a thousand brighter than the ground, in the corner of the picture, stated half a pixel too wide. -/
example : ∃ steps, ∀ fuel, (max 1 ⌊(81 / 2 : ℝ) / 3⌋).toNat < fuel →
    coarselyLocate fuel (faintDisc 100 200 40 1000 1 (-75) 25) (81 / 2) 3 = some (.ok ((-75, 25), steps)) :=
  C134_ground _ (faintDisc 100 200 40 1000 1 (-75) 25) 40 (81 / 2) 3 1000 1 (by norm_num) (by norm_num) (by norm_num) (by norm_num) (by norm_num)
    (-75) 25 (Or.inl (by simp [faintDisc]))
    (faintDisc_lit _ _ _ _ _ _ _ (discPicture_ideal _ _ _ _ _ _ (by norm_num) (by norm_num) (by norm_num) (by norm_num) (by norm_num)))
    ⟨rfl, rfl, by simp⟩
    (by rw [show ⌊(40 : ℝ) / 2⌋ = 20 by rw [Int.floor_eq_iff]; norm_num, show ⌊(81 / 2 : ℝ) / 2⌋ = 20 by rw [Int.floor_eq_iff]; norm_num])

/-- **C134.** The ground must not be negative: where a background was subtracted twice, so that all pixels are negative, the best trial disc lies
off the picture, and the search does not return the centre. -/
theorem C134_negative_ground : LitGround (faintDisc 2 2 1 (-2) 1 0 0) 1 (-2) 1 0 0 ∧
    ∀ fuel steps, coarselyLocate fuel (faintDisc 2 2 1 (-2) 1 0 0) 1 3 ≠ some (.ok ((0, 0), steps)) := by
  classical
  refine ⟨faintDisc_lit 2 2 1 (-2) 1 0 0 (discPicture_ideal _ _ _ _ _ _ (by norm_num) (by norm_num) (by norm_num) (by norm_num) (by norm_num)),
    fun fuel steps h => ?_⟩
  obtain ⟨x, y, st, -, -, hall⟩ := C51_terminates (faintDisc 2 2 1 (-2) 1 0 0) 1 3 (by norm_num) (by norm_num) (Or.inl (le_refl 2))
  have e1 : max 1 ⌊(1 : ℝ) / 3⌋ = 1 := by rw [show ⌊(1 : ℝ) / 3⌋ = 0 by rw [Int.floor_eq_iff]; norm_num]; norm_num
  have erad : (max ((faintDisc 2 2 1 (-2) 1 0 0).nc / 2 : ℕ) ((faintDisc 2 2 1 (-2) 1 0 0).nr / 2 : ℕ) : ℤ) = 1 := by
    show (max ((2 / 2 : ℕ) : ℤ) ((2 / 2 : ℕ) : ℤ)) = 1
    norm_num
  obtain ⟨bx, bq, M, hok, -, -, hbest⟩ := C52_best (faintDisc 2 2 1 (-2) 1 0 0) 1 0 0 1 1 (by norm_num) (by norm_num) (by norm_num)
  have hans : bx = 0 ∧ bq = 0 := by
    unfold coarselyLocate at h
    rw [if_neg (by norm_num), if_neg (by norm_num), if_neg (by norm_num), e1, erad] at h
    match fuel, h with
    | 0, h => exact absurd h (by simp [coarseLoop])
    | 1, h =>
      unfold coarseLoop at h
      rw [if_neg (by norm_num), hok] at h
      exact absurd h (by simp [coarseLoop])
    | f + 2, h =>
      unfold coarseLoop at h
      rw [if_neg (by norm_num), hok] at h
      unfold coarseLoop at h
      simp only [nextStep, if_true] at h
      have := (Prod.mk.inj (Except.ok.inj (Option.some.inj h))).1
      exact Prod.mk.inj this
  have h1 := (hbest 0 1 ⟨1, by norm_num⟩ ⟨2, by norm_num⟩).1
  rw [hans.1, hans.2] at h1
  have s1 : beamSum (faintDisc 2 2 1 (-2) 1 0 0) 1 0 1 = 0 := by
    unfold beamSum
    show ∑ i : Fin 2, ∑ j : Fin 2, _ = _
    simp [Fin.sum_univ_two, InBeam, faintDisc]
    norm_num
  have s2 : beamSum (faintDisc 2 2 1 (-2) 1 0 0) 1 0 0 = -1 := by
    unfold beamSum
    show ∑ i : Fin 2, ∑ j : Fin 2, _ = _
    simp [Fin.sum_univ_two, InBeam, faintDisc, discPicture]
    norm_num
  rw [s1, s2] at h1
  norm_num at h1

end Coralign.Props
