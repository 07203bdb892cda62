import Verif.Spec.PlateSolv
import Verif.Props.Mft
import Verif.Props.NormFactor
import Verif.Props.SpmShear
import Verif.Props.ThinFilm
import Verif.Props.LyotFit

/-!
# C84: the plate scale search
-/

namespace Coralign.Props

open Coralign Coralign.Spec

theorem re_cis (t : ℝ) : (cis t).re = Real.cos (2 * Real.pi * t) := by
  unfold cis
  rw [show (2 * Real.pi * Complex.I * t : ℂ) = ((2 * Real.pi * t : ℝ) : ℂ) * Complex.I by push_cast; ring, Complex.exp_ofReal_mul_I_re]

theorem offc_fromCentre (n i : ℕ) : ((offc n i : ℤ) : ℝ) = fromCentre n i := by
  unfold offc fromCentre
  push_cast
  rfl

/-- The two transforms of the code resample the simulated image. -/
theorem trial_eq (g : Arr2 ℝ) (pg p : ℝ) (hr : 0 < g.nr) (hc : 0 < g.nc) (hg : 0 < pg) (hp : 0 < p) :
    ∃ ref, doImft (g.map fun v : ℝ => (v : ℂ)) g.nr g.nc pg ((max g.nr g.nc : ℕ) : ℝ) = .ok ref ∧
      ∀ p : ℝ, 0 < p → ∃ t, doMft ref g.nr g.nc p ((max g.nr g.nc : ℕ) : ℝ) = .ok t ∧ t.map (fun z : ℂ => z.re) = trialImage g pg p := by
  have hN : (0 : ℝ) < ((max g.nr g.nc : ℕ) : ℝ) := by
    have : 0 < max g.nr g.nc := lt_max_of_lt_left hr
    exact_mod_cast this
  refine ⟨_, C18_imft_sum (g.map fun v : ℝ => (v : ℂ)) g.nr g.nc pg _ ⟨by exact_mod_cast hr, by exact_mod_cast hc, hg, hN⟩ hr hc, fun p hp => ?_⟩
  refine ⟨_, C18_mft_sum _ g.nr g.nc p _ ⟨by exact_mod_cast hr, by exact_mod_cast hc, hp, hN⟩ (by simpa [Arr2.ofFn] using hr) (by simpa [Arr2.ofFn] using hc), ?_⟩
  obtain ⟨n, m, f⟩ := g
  unfold trialImage Arr2.map Arr2.ofFn
  simp only [Int.toNat_natCast] at *
  congr 1
  funext a b
  unfold mftSum rescaledAt imftSum
  simp only
  generalize ((max n m : ℕ) : ℝ) = N at *
  rw [show ((N : ℝ) : ℂ) ^ 2 = ((N ^ 2 : ℝ) : ℂ) by push_cast; rfl, show ((pg : ℝ) : ℂ) ^ 2 = ((pg ^ 2 : ℝ) : ℂ) by push_cast; rfl]
  rw [Complex.div_ofReal_re, Complex.re_sum, Finset.sum_div]
  refine Finset.sum_congr rfl fun u _ => ?_
  rw [Complex.re_sum, Finset.sum_div]
  refine Finset.sum_congr rfl fun v _ => ?_
  rw [div_mul_eq_mul_div, Complex.div_ofReal_re, Finset.sum_mul, Complex.re_sum, Finset.sum_div, Finset.sum_div]
  refine Finset.sum_congr rfl fun i _ => ?_
  rw [Finset.sum_mul, Complex.re_sum, Finset.sum_div, Finset.sum_div]
  refine Finset.sum_congr rfl fun j _ => ?_
  rw [mul_assoc, ← cis_add, Complex.re_ofReal_mul, re_cis, div_div]
  simp only [offc_fromCentre]
  congr 4

theorem top_iff (g : Arr2 ℝ) (top : ℝ) : g.pixels.max? = some top ↔ IsBrightest g top := by
  rw [List.max?_eq_some_iff]
  unfold IsBrightest
  rw [mem_pixels_val]
  constructor
  · rintro ⟨h1, h2⟩
    exact ⟨h1, fun i j => h2 _ ((mem_pixels_val g _).mpr ⟨i, j, rfl⟩)⟩
  · rintro ⟨h1, h2⟩
    refine ⟨h1, fun b hb => ?_⟩
    obtain ⟨i, j, rfl⟩ := (mem_pixels_val g b).mp hb
    exact h2 i j

theorem top_exists (g : Arr2 ℝ) (hr : 0 < g.nr) (hc : 0 < g.nc) : ∃ top, g.pixels.max? = some top := by
  cases h : g.pixels.max? with
  | some v => exact ⟨v, rfl⟩
  | none =>
    rw [List.max?_eq_none_iff] at h
    have : g.val ⟨0, hr⟩ ⟨0, hc⟩ ∈ g.pixels := (mem_pixels_val g _).mpr ⟨_, _, rfl⟩
    rw [h] at this
    cases this

theorem stdDev_iff (n m : ℕ) (hn : 0 < n) (hm : 0 < m) (f : ℕ → ℕ → ℝ) (sd : ℝ) : sd = stdDev ⟨n, m, fun i j => f i j⟩ ↔ IsStd n m f sd := by
  have hnm : (0 : ℝ) < n * m := by positivity
  have s : ∀ F : ℕ → ℕ → ℝ, ∑ i : Fin n, ∑ j : Fin m, F i j = ∑ i ∈ Finset.range n, ∑ j ∈ Finset.range m, F i j := by
    intro F
    rw [← Fin.sum_univ_eq_sum_range (fun i => ∑ j ∈ Finset.range m, F i j)]
    refine Finset.sum_congr rfl fun i _ => ?_
    rw [← Fin.sum_univ_eq_sum_range (fun j => F i j)]
  unfold stdDev IsStd
  simp only
  rw [s f]
  generalize hM : (∑ i ∈ Finset.range n, ∑ j ∈ Finset.range m, f i j) / ((n : ℝ) * m) = M
  rw [s fun i j => (f i j - M) ^ 2]
  have hnn : 0 ≤ (∑ i ∈ Finset.range n, ∑ j ∈ Finset.range m, (f i j - M) ^ 2) / ((n : ℝ) * m) :=
    div_nonneg (Finset.sum_nonneg fun _ _ => Finset.sum_nonneg fun _ _ => sq_nonneg _) hnm.le
  constructor
  · rintro rfl
    refine ⟨Real.sqrt_nonneg _, M, ?_, ?_⟩
    · rw [← hM]; field_simp
    · rw [Real.sq_sqrt hnn]; field_simp
  · rintro ⟨h0, mean, h1, h2⟩
    obtain rfl : mean = M := by rw [← hM, eq_div_iff hnm.ne', ← h1]; ring
    rw [eq_comm, Real.sqrt_eq_iff_mul_self_eq hnn h0, div_eq_iff hnm.ne', ← h2]
    ring

/-- One pass of the loop. -/
theorem residual_eq (img g : Arr2 ℝ) (pg w n pct step p : ℝ) (h : PlateArgs img g pg w n pct step) (hp : 0 < p) (ref : Arr2 ℂ)
    (href : doImft (g.map fun v : ℝ => (v : ℂ)) g.nr g.nc pg ((max g.nr g.nc : ℕ) : ℝ) = .ok ref) :
    ∃ r, plateResidual img g ref ((max g.nr g.nc : ℕ) : ℝ) pct p = .ok r ∧ ∀ r', Misfit img g pg pct p r' ↔ r' = r := by
  obtain ⟨ref', h1, h2⟩ := trial_eq g pg p h.pixels.1 h.pixels.2 h.scale hp
  rw [h1] at href
  obtain rfl := Except.ok.inj href
  obtain ⟨t, h3, h4⟩ := h2 p hp
  obtain ⟨top, htop⟩ := top_exists g h.pixels.1 h.pixels.2
  have hT := (top_iff g top).mp htop
  have huniq : ∀ top', IsBrightest g top' → top' = top := fun top' h' => by
    have := (top_iff g top').mpr h'
    rw [htop] at this
    exact (Option.some.inj this).symm
  unfold plateResidual
  rw [h3, res_ok_bind, if_neg (by push Not; exact ⟨h.pctLo, h.pctHi⟩)]
  simp only
  rw [h4, htop, Option.getD_some]
  by_cases hz : percentile (trialImage g pg p).pixels pct = 0 ∨ top = 0
  · rw [if_pos hz]
    refine ⟨none, rfl, fun r' => ⟨?_, ?_⟩⟩
    · rintro ⟨top', ht', h'⟩
      obtain rfl := huniq top' ht'
      cases r' with
      | none => rfl
      | some sd =>
        rcases hz with hz | hz
        · exact absurd hz h'.1
        · exact absurd hz h'.2.1
    · rintro rfl
      exact ⟨top, hT, hz⟩
  · rw [if_neg hz]
    push Not at hz
    have himg : 0 < img.nr ∧ 0 < img.nc := by rw [h.rows, h.cols]; exact h.pixels
    obtain ⟨F, hF⟩ : ∃ F : ℕ → ℕ → ℝ, F = fun i j : ℕ => (rescaledAt g pg p i j * (percentile img.pixels pct / percentile (trialImage g pg p).pixels pct) - img.zext i j) / top := ⟨_, rfl⟩
    have hval : (⟨img.nr, img.nc, fun i j => ((trialImage g pg p).zext ((i : ℕ) : ℤ) ((j : ℕ) : ℤ) * (percentile img.pixels pct / percentile (trialImage g pg p).pixels pct) - img.val i j) / top⟩ : Arr2 ℝ) =
        ⟨img.nr, img.nc, fun i j => F i j⟩ := by
      congr 1
      funext i j
      have e1 : (trialImage g pg p).zext ((i : ℕ) : ℤ) ((j : ℕ) : ℤ) = rescaledAt g pg p i j := by
        have hi : (i : ℕ) < g.nr := by rw [← h.rows]; exact i.2
        have hj : (j : ℕ) < g.nc := by rw [← h.cols]; exact j.2
        have := Arr2.px_val (trialImage g pg p) ⟨i, hi⟩ ⟨j, hj⟩
        unfold Arr2.zext
        simp only at this
        rw [this]
        rfl
      have e2 : img.zext ((i : ℕ) : ℤ) ((j : ℕ) : ℤ) = img.val i j := by
        unfold Arr2.zext
        rw [Arr2.px_val]
        rfl
      rw [hF, e1]
      simp only
      rw [e2]
    rw [hval]
    refine ⟨_, rfl, fun r' => ?_⟩
    have key := stdDev_iff img.nr img.nc himg.1 himg.2 F
    generalize stdDev ⟨img.nr, img.nc, fun i j => F i j⟩ = sd0 at key
    unfold Misfit
    constructor
    · rintro ⟨top', ht', h'⟩
      obtain rfl := huniq top' ht'
      cases r' with
      | none =>
        rcases h' with h' | h'
        · exact absurd h' hz.1
        · exact absurd h' hz.2
      | some sd =>
        obtain ⟨-, -, h'⟩ := h'
        rw [← hF] at h'
        exact congrArg some ((key sd).mpr h')
    · rintro rfl
      refine ⟨top, hT, hz.1, hz.2, ?_⟩
      rw [← hF]
      exact (key sd0).mp rfl

/-! ### The grids -/

theorem arange_ok (e : PyExc) (a b s : ℝ) (hs : 0 < s) : ∃ l, arange e a b s = .ok l ∧ (∀ k (h : k < l.length), l[k] = a + k * s) ∧ (∀ k : ℕ, k < l.length ↔ a + k * s < b) ∧
    ∀ x, x ∈ l ↔ OnGrid a b s x := by
  have hlen : ∀ k : ℕ, k < ⌈(b - a) / s⌉.toNat ↔ a + k * s < b := by
    intro k
    rw [Int.lt_toNat, Int.lt_ceil, lt_div_iff₀ hs]
    push_cast
    constructor <;> intro h <;> linarith
  refine ⟨_, by unfold arange; rw [if_neg hs.ne'], fun k h => by simp, fun k => by rw [List.length_map, List.length_range]; exact hlen k, fun x => ?_⟩
  rw [List.mem_map]
  unfold OnGrid
  constructor
  · rintro ⟨k, hk, rfl⟩
    exact ⟨k, rfl, (hlen k).mp (List.mem_range.mp hk)⟩
  · rintro ⟨k, rfl, hk⟩
    exact ⟨k, List.mem_range.mpr ((hlen k).mpr hk), rfl⟩

theorem mapM_id (l : List (Option ℝ)) : (∀ ys, l.mapM id = some ys ↔ l = ys.map some) ∧ (l.mapM id = none ↔ none ∈ l) := by
  induction l with
  | nil =>
    refine ⟨fun ys => ?_, ?_⟩
    · rw [List.mapM_nil]
      constructor
      · intro h
        obtain rfl := Option.some.inj h
        rfl
      · intro h
        have := congrArg List.length h
        rw [List.length_map] at this
        obtain rfl := List.eq_nil_of_length_eq_zero this.symm
        rfl
    · simp
  | cons a l ih =>
    rw [List.mapM_cons]
    cases a with
    | none =>
      refine ⟨fun ys => ?_, ?_⟩
      · constructor
        · intro h; cases h
        · intro h
          cases ys with
          | nil => cases h
          | cons y ys => cases (List.cons.inj h).1
      · constructor
        · intro _; exact List.mem_cons_self
        · intro _; rfl
    | some v =>
      cases hl : l.mapM id with
      | none =>
        have hn := ih.2.mp hl
        refine ⟨fun ys => ?_, ?_⟩
        · constructor
          · intro h
            simp only [id, Option.bind_eq_bind, Option.bind_some, Option.bind_none] at h
            cases h
          · intro h
            cases ys with
            | nil => cases (congrArg List.length h)
            | cons y ys =>
              have := (List.cons.inj h).2
              rw [this] at hn
              simp at hn
        · constructor
          · intro _; exact List.mem_cons_of_mem _ hn
          · intro _; rfl
      | some zs =>
        have hz := (ih.1 zs).mp hl
        refine ⟨fun ys => ?_, ?_⟩
        · constructor
          · intro h
            have h : some (v :: zs) = some ys := h
            obtain rfl := Option.some.inj h
            rw [hz]
            rfl
          · intro h
            cases ys with
            | nil => cases h
            | cons y ys =>
              obtain ⟨h1, h2⟩ := List.cons.inj h
              obtain rfl := Option.some.inj h1
              have := (ih.1 ys).mpr h2
              rw [hl] at this
              obtain rfl := Option.some.inj this
              rfl
        · constructor
          · intro h
            have h : some (v :: zs) = none := h
            cases h
          · intro h
            rw [hz] at h
            simp at h

/-- **C84.** What the search returns for a positive search width: the plate scales tried, their misfits, and the points of the interpolation
grid at which the curve through the misfits is lowest, or nothing if a misfit is not a number. -/
theorem C84_answer (I : Interp1d) (img guess : Arr2 ℝ) (pg w n pct step : ℝ) (h : PlateArgs img guess pg w n pct step) :
    ∃ best pix resid, platesolv I img guess pg ⟨some w, some n, some pct, some step⟩ = .ok (best, pix, resid) ∧
      IsScales pg w n pix ∧ 4 ≤ pix.length ∧ resid.length = pix.length ∧
      (∀ k (h1 : k < pix.length) (h2 : k < resid.length), ∀ r, Misfit img guess pg pct pix[k] r ↔ r = resid[k]) ∧
      (none ∈ resid → best = []) ∧
      ∀ ys, resid = ys.map some → IsLowest (pg * (1 - w)) (pg * (1 - w) + (pix.length - 1) * (2 * pg * w / n)) step (I.eval pix ys) best := by
  classical
  have hn : 0 < n := by linarith [h.trials]
  have hs : 0 < pg * w / (n / 2) := div_pos (mul_pos h.scale h.widPos) (by linarith)
  have hse : pg * w / (n / 2) = 2 * pg * w / n := by field_simp
  obtain ⟨pix, hpix, hk, hlen, hmem⟩ := arange_ok .zeroDivisionError (pg - pg * w) (pg + pg * w) (pg * w / (n / 2)) hs
  have ha : pg - pg * w = pg * (1 - w) := by ring
  have hb : pg + pg * w = pg * (1 + w) := by ring
  rw [hse, ha] at hk
  rw [hse, ha, hb] at hlen
  rw [hse] at hs
  have hpos : ∀ p ∈ pix, 0 < p := by
    intro p hp
    obtain ⟨k, rfl, -⟩ := (hmem p).mp hp
    have : 0 < pg * (1 - w) := mul_pos h.scale (by linarith [h.widLt])
    rw [hse, ha]
    positivity
  have hfour : 4 ≤ pix.length := by
    rw [Nat.succ_le_iff, hlen]
    have : 2 * pg * w / n * 3 < 2 * pg * w := by
      rw [div_mul_eq_mul_div, div_lt_iff₀ hn]
      have := mul_pos h.scale h.widPos
      nlinarith [h.trials]
    push_cast
    linarith
  obtain ⟨ref, href, -⟩ := trial_eq guess pg pg h.pixels.1 h.pixels.2 h.scale h.scale
  have hres : ∀ p, 0 < p → ∃ r, plateResidual img guess ref ((max guess.nr guess.nc : ℕ) : ℝ) pct p = .ok r ∧ ∀ r', Misfit img guess pg pct p r' ↔ r' = r :=
    fun p hp => residual_eq img guess pg w n pct step p h hp ref href
  choose! m hm using hres
  have hmap : pix.mapM (fun p => plateResidual img guess ref ((max guess.nr guess.nc : ℕ) : ℝ) pct p) = .ok (pix.map m) := mapM_ok _ _ _ fun p hp => (hm p (hpos p hp)).1
  have hmono : ∀ i j (hi : i < pix.length) (hj : j < pix.length), i ≤ j → pix[i] ≤ pix[j] := by
    intro i j hi hj hij
    rw [hk, hk]
    have : (i : ℝ) ≤ j := by exact_mod_cast hij
    nlinarith
  have hmin : pix.min? = some (pg * (1 - w)) := by
    rw [List.min?_eq_some_iff]
    have h0 := hk 0 (by omega)
    rw [Nat.cast_zero, zero_mul, add_zero] at h0
    rw [← h0]
    refine ⟨List.getElem_mem _, fun b hb => ?_⟩
    obtain ⟨j, hj, rfl⟩ := List.getElem_of_mem hb
    exact hmono 0 j _ hj (Nat.zero_le _)
  have hmaxv : pix.max? = some (pg * (1 - w) + (pix.length - 1) * (2 * pg * w / n)) := by
    rw [List.max?_eq_some_iff]
    have h0 := hk (pix.length - 1) (by omega)
    rw [Nat.cast_sub (by omega), Nat.cast_one] at h0
    rw [← h0]
    refine ⟨List.getElem_mem _, fun b hb => ?_⟩
    obtain ⟨j, hj, rfl⟩ := List.getElem_of_mem hb
    exact hmono j _ hj _ (by omega)
  generalize hhi : pg * (1 - w) + (pix.length - 1) * (2 * pg * w / n) = hi at hmaxv
  have hlohi : pg * (1 - w) < hi := by
    rw [← hhi]
    have : (4 : ℝ) ≤ pix.length := by exact_mod_cast hfour
    have := mul_pos (show (0 : ℝ) < pix.length - 1 by linarith) hs
    linarith
  obtain ⟨xs, hxs, hxk, -, hxmem⟩ := arange_ok .valueError (pg * (1 - w)) hi step h.step
  have hxne : xs ≠ [] := by
    intro h0
    have : pg * (1 - w) ∈ xs := (hxmem _).mpr ⟨0, by simp, hlohi⟩
    rw [h0] at this
    cases this
  have heq : platesolv I img guess pg ⟨some w, some n, some pct, some step⟩ = match (pix.map m).mapM id with
      | none => .ok ([], pix, pix.map m)
      | some ys => .ok (xs.filter fun x => I.eval pix ys x = ((xs.map (I.eval pix ys)).min?).getD 0, pix, pix.map m) := by
    unfold platesolv
    rw [if_neg (not_le.mpr h.scale), if_neg (by push Not; exact ⟨h.rows, h.cols⟩)]
    simp only
    rw [if_neg hn.ne', hpix, res_ok_bind, href, res_ok_bind, hmap, res_ok_bind, hmin, hmaxv]
    simp only
    rw [hxs, res_ok_bind, if_neg (by omega), if_neg hxne]
    cases (pix.map m).mapM id with
    | none => rfl
    | some ys => rfl
  have hscales : IsScales pg w n pix := ⟨hk, hlen⟩
  have hmis : ∀ k (h1 : k < pix.length) (h2 : k < (pix.map m).length), ∀ r, Misfit img guess pg pct pix[k] r ↔ r = (pix.map m)[k] := by
    intro k h1 h2 r
    rw [List.getElem_map]
    exact (hm _ (hpos _ (List.getElem_mem _))).2 r
  cases hid : (pix.map m).mapM id with
  | none =>
    refine ⟨[], pix, pix.map m, by rw [heq, hid], hscales, hfour, by simp, hmis, fun _ => rfl, fun ys hys => ?_⟩
    have := (mapM_id (pix.map m)).2.mp hid
    rw [hys] at this
    simp at this
  | some ys =>
    refine ⟨_, pix, pix.map m, by rw [heq, hid], hscales, hfour, by simp, hmis, fun hnone => ?_, fun ys' hys => ?_⟩
    · have := (mapM_id (pix.map m)).2.mpr hnone
      rw [hid] at this
      cases this
    · rw [hhi]
      have h' := (mapM_id (pix.map m)).1 ys' |>.mpr hys
      rw [hid] at h'
      obtain rfl := Option.some.inj h'
      cases hlow : (xs.map (I.eval pix ys)).min? with
      | none =>
        rw [List.min?_eq_none_iff, List.map_eq_nil_iff] at hlow
        exact absurd hlow hxne
      | some low =>
        obtain ⟨hl1, hl2⟩ := List.min?_eq_some_iff.mp hlow
        obtain ⟨x0, hx0, hx0v⟩ := List.mem_map.mp hl1
        have hle : ∀ x', OnGrid (pg * (1 - w)) hi step x' → low ≤ I.eval pix ys x' := fun x' hx' => hl2 _ (List.mem_map.mpr ⟨x', (hxmem x').mpr hx', rfl⟩)
        simp only [Option.getD_some]
        refine ⟨?_, ?_, ?_⟩
        · intro h0
          have : x0 ∈ xs.filter fun x => decide (I.eval pix ys x = low) := List.mem_filter.mpr ⟨hx0, decide_eq_true hx0v⟩
          rw [h0] at this
          cases this
        · refine List.Pairwise.filter _ (List.pairwise_iff_getElem.mpr fun i j hi hj hij => ?_)
          rw [hxk, hxk]
          have : (i : ℝ) < j := by exact_mod_cast hij
          nlinarith [h.step]
        · intro x
          rw [List.mem_filter, hxmem]
          constructor
          · rintro ⟨h1, h2⟩
            refine ⟨h1, fun x' hx' => ?_⟩
            rw [of_decide_eq_true h2]
            exact hle x' hx'
          · rintro ⟨h1, h2⟩
            refine ⟨h1, decide_eq_true (le_antisymm ?_ (hle x h1))⟩
            rw [← hx0v]
            exact h2 x0 ((hxmem x0).mp hx0)

theorem scales_unique {pg w n : ℝ} {l l' : List ℝ} (h : IsScales pg w n l) (h' : IsScales pg w n l') : l = l' := by
  have hlen : l.length = l'.length := by
    have : ∀ k, k < l.length ↔ k < l'.length := fun k => (h.2 k).trans (h'.2 k).symm
    have h1 := this l.length
    have h2 := this l'.length
    omega
  refine List.ext_getElem hlen fun k h1 h2 => ?_
  rw [h.1 k h1, h'.1 k h2]

theorem resid_unique {img g : Arr2 ℝ} {pg pct : ℝ} {pix : List ℝ} {r r' : List (Option ℝ)} (h : r.length = pix.length) (h' : r'.length = pix.length)
    (hr : ∀ k (h1 : k < pix.length) (h2 : k < r.length), ∀ v, Misfit img g pg pct pix[k] v ↔ v = r[k])
    (hr' : ∀ k (h1 : k < pix.length) (h2 : k < r'.length), Misfit img g pg pct pix[k] r'[k]) : r' = r :=
  List.ext_getElem (h'.trans h.symm) fun k h1 h2 => (hr k (h ▸ h2) h2 _).mp (hr' k (h ▸ h2) h1)

theorem lowest_unique {lo hi step : ℝ} {f f' : ℝ → ℝ} {l l' : List ℝ} (hf : ∀ x y, f x ≤ f y ↔ f' x ≤ f' y) (h : IsLowest lo hi step f l)
    (h' : IsLowest lo hi step f' l') : l' = l := by
  refine List.Pairwise.eq_of_mem_iff (r := (· < ·)) h'.2.1 h.2.1 fun x => ?_
  rw [h.2.2, h'.2.2]
  simp only [hf]

/-- **C84.** The range searched.  No plate scale outside `[pg (1 - w), pg (1 + w))` is tried or returned, and for a whole number of trials nothing
above `pg (1 + w - 2 w / n)` is, although the search is documented to reach `w` to either side of the guess. -/
theorem C84_range (I : Interp1d) (img guess : Arr2 ℝ) (pg w n pct step : ℝ) (h : PlateArgs img guess pg w n pct step) (best pix : List ℝ) (resid : List (Option ℝ))
    (hrun : platesolv I img guess pg ⟨some w, some n, some pct, some step⟩ = .ok (best, pix, resid)) :
    (∀ p ∈ pix, pg * (1 - w) ≤ p ∧ p < pg * (1 + w)) ∧ (∀ x ∈ best, pg * (1 - w) ≤ x ∧ x < pg * (1 + w)) ∧
    ∀ m : ℕ, n = m → pix.length = m ∧ (∀ p ∈ pix, p ≤ pg * (1 + w) - 2 * pg * w / n) ∧ ∀ x ∈ best, x < pg * (1 + w) - 2 * pg * w / n := by
  obtain ⟨best', pix', resid', h0, hs, h4, hl, -, hnan, hlow⟩ := C84_answer I img guess pg w n pct step h
  rw [hrun] at h0
  obtain ⟨rfl, rfl, rfl⟩ : best = best' ∧ pix = pix' ∧ resid = resid' := by
    have := Except.ok.inj h0
    simpa [Prod.mk.injEq] using this
  have hn : 0 < n := by linarith [h.trials]
  have hst : 0 < 2 * pg * w / n := div_pos (by have := mul_pos h.scale h.widPos; linarith) hn
  have hbest : ∀ x ∈ best, pg * (1 - w) ≤ x ∧ x < pg * (1 - w) + (pix.length - 1) * (2 * pg * w / n) := by
    intro x hx
    cases hid : resid.mapM id with
    | none =>
      rw [hnan ((mapM_id resid).2.mp hid)] at hx
      cases hx
    | some ys =>
      obtain ⟨⟨k, hk, hk'⟩, -⟩ := ((hlow ys (((mapM_id resid).1 ys).mp hid)).2.2 x).mp hx
      refine ⟨?_, hk'⟩
      have := h.step
      have : 0 ≤ (k : ℝ) * step := by positivity
      linarith
  have hlast := (hs.2 (pix.length - 1)).mp (by omega)
  rw [Nat.cast_sub (by omega), Nat.cast_one] at hlast
  refine ⟨fun p hp => ?_, fun x hx => ⟨(hbest x hx).1, (hbest x hx).2.trans hlast⟩, fun m hm => ?_⟩
  · obtain ⟨k, hk, rfl⟩ := List.getElem_of_mem hp
    rw [hs.1 k hk]
    exact ⟨le_add_of_nonneg_right (by positivity), (hs.2 k).mp hk⟩
  · have hlen : pix.length = m := by
      have key : ∀ k : ℕ, k < pix.length ↔ k < m := by
        intro k
        rw [hs.2 k, ← Nat.cast_lt (α := ℝ), ← hm]
        rw [show pg * (1 - w) + k * (2 * pg * w / n) < pg * (1 + w) ↔ k * (2 * pg * w / n) < n * (2 * pg * w / n) by
          rw [mul_div_cancel₀ _ hn.ne']
          constructor <;> intro h <;> linarith]
        exact mul_lt_mul_iff_left₀ hst
      have h1 := key pix.length
      have h2 := key m
      omega
    have he : pg * (1 - w) + (pix.length - 1) * (2 * pg * w / n) = pg * (1 + w) - 2 * pg * w / n := by
      rw [hlen, ← hm]
      field_simp
      ring
    refine ⟨hlen, fun p hp => ?_, fun x hx => he ▸ (hbest x hx).2⟩
    obtain ⟨k, hk, rfl⟩ := List.getElem_of_mem hp
    rw [hs.1 k hk, ← he]
    have : (k : ℝ) ≤ pix.length - 1 := by
      have : (k : ℝ) + 1 ≤ pix.length := by exact_mod_cast hk
      linarith
    have := mul_le_mul_of_nonneg_right this hst.le
    linarith

/-! ### Exposure -/

theorem isStd_scale {n m : ℕ} {f : ℕ → ℕ → ℝ} {sd c : ℝ} (hc : 0 ≤ c) (h : IsStd n m f sd) : IsStd n m (fun i j => c * f i j) (c * sd) := by
  obtain ⟨h0, mean, h1, h2⟩ := h
  refine ⟨mul_nonneg hc h0, c * mean, ?_, ?_⟩
  · simp only [← Finset.mul_sum]
    rw [← h1]
    ring
  · simp only [← mul_sub, mul_pow, ← Finset.mul_sum]
    rw [← h2]
    ring

theorem zext_scale (c : ℝ) (a : Arr2 ℝ) (i j : ℤ) : (a.map fun v : ℝ => c * v).zext i j = c * a.zext i j := by
  unfold Arr2.zext
  rw [Arr2.px_map]
  cases a.px i j with
  | none => simp
  | some v => rfl

theorem rescaled_scale (k : ℝ) (g : Arr2 ℝ) (pg p : ℝ) (a b : ℕ) : rescaledAt (g.map fun v : ℝ => k * v) pg p a b = k * rescaledAt g pg p a b := by
  obtain ⟨n, m, f⟩ := g
  unfold rescaledAt Arr2.map
  simp only [Finset.mul_sum]
  refine Finset.sum_congr rfl fun u _ => Finset.sum_congr rfl fun v _ => Finset.sum_congr rfl fun i _ => Finset.sum_congr rfl fun j _ => ?_
  rw [mul_assoc, mul_div_assoc]

theorem trial_scale (k : ℝ) (g : Arr2 ℝ) (pg p : ℝ) : trialImage (g.map fun v : ℝ => k * v) pg p = (trialImage g pg p).map fun v : ℝ => k * v := by
  unfold trialImage
  simp only [rescaled_scale]
  rfl

theorem pixels_scale (k : ℝ) (g : Arr2 ℝ) : (g.map fun v : ℝ => k * v).pixels = g.pixels.map fun v : ℝ => k * v := by
  unfold Arr2.pixels Arr2.map
  simp only [List.map_flatMap, List.map_map]
  rfl

theorem brightest_scale {k : ℝ} (hk : 0 < k) {g : Arr2 ℝ} {top : ℝ} (h : IsBrightest g top) : IsBrightest (g.map fun v : ℝ => k * v) (k * top) := by
  obtain ⟨⟨i, j, hij⟩, h2⟩ := h
  exact ⟨⟨i, j, by rw [← hij]; rfl⟩, fun i j => mul_le_mul_of_nonneg_left (h2 i j) hk.le⟩

theorem misfit_scale {img g : Arr2 ℝ} {pg pct p : ℝ} {r : Option ℝ} {c k : ℝ} (hc : 0 < c) (hk : 0 < k) (h : Misfit img g pg pct p r) :
    Misfit (img.map fun v : ℝ => c * v) (g.map fun v : ℝ => k * v) pg pct p (r.map fun v : ℝ => c / k * v) := by
  obtain ⟨top, htop, h⟩ := h
  refine ⟨k * top, brightest_scale hk htop, ?_⟩
  rw [trial_scale, pixels_scale, percentile_scale _ _ _ hk]
  cases r with
  | none =>
    rcases h with h | h
    · exact Or.inl (by rw [h, mul_zero])
    · exact Or.inr (by rw [h, mul_zero])
  | some sd =>
    obtain ⟨h1, h2, h3⟩ := h
    refine ⟨mul_ne_zero hk.ne' h1, mul_ne_zero hk.ne' h2, ?_⟩
    have := isStd_scale (div_pos hc hk).le h3
    rw [pixels_scale, percentile_scale _ _ _ hc]
    show IsStd img.nr img.nc _ _
    convert this using 1
    funext i j
    rw [rescaled_scale, zext_scale]
    have := hk.ne'
    field_simp

theorem plateArgs_scale {img g : Arr2 ℝ} {pg w n pct step : ℝ} (c k : ℝ) (h : PlateArgs img g pg w n pct step) :
    PlateArgs (img.map fun v : ℝ => c * v) (g.map fun v : ℝ => k * v) pg w n pct step :=
  ⟨h.scale, h.rows, h.cols, h.pixels, h.widPos, h.widLt, h.trials, h.pctLo, h.pctHi, h.step⟩

/-- **C84.** The exposure of neither image matters: multiplying the recorded image by `c` and the simulated one by `k` leaves the plate scales
tried and the answer alone and multiplies every misfit by `c / k`. -/
theorem C84_exposure (I : Interp1d) (img guess : Arr2 ℝ) (pg w n pct step : ℝ) (h : PlateArgs img guess pg w n pct step) (best pix : List ℝ) (resid : List (Option ℝ))
    (hrun : platesolv I img guess pg ⟨some w, some n, some pct, some step⟩ = .ok (best, pix, resid)) (c k : ℝ) (hc : 0 < c) (hk : 0 < k) :
    platesolv I (img.map fun v : ℝ => c * v) (guess.map fun v : ℝ => k * v) pg ⟨some w, some n, some pct, some step⟩ =
      .ok (best, pix, resid.map fun r => r.map fun v : ℝ => c / k * v) := by
  obtain ⟨best', pix', resid', h0, hs, h4, hl, hm, hnan, hlow⟩ := C84_answer I img guess pg w n pct step h
  rw [hrun] at h0
  obtain ⟨rfl, rfl, rfl⟩ : best = best' ∧ pix = pix' ∧ resid = resid' := by
    have := Except.ok.inj h0
    simpa [Prod.mk.injEq] using this
  obtain ⟨best', pix', resid', h0, hs', h4', hl', hm', hnan', hlow'⟩ := C84_answer I _ _ pg w n pct step (plateArgs_scale c k h)
  obtain rfl := scales_unique hs hs'
  have hck := div_pos hc hk
  have hr : resid.map (fun r => r.map fun v : ℝ => c / k * v) = resid' := by
    refine resid_unique hl' (by rw [List.length_map, hl]) hm' fun j h1 h2 => ?_
    rw [List.getElem_map]
    exact misfit_scale hc hk ((hm j h1 (by rwa [List.length_map] at h2) _).mpr rfl)
  rw [h0, ← hr]
  congr 3
  cases hid : resid.mapM id with
  | none =>
    have h1 := (mapM_id resid).2.mp hid
    rw [hnan h1]
    refine hnan' ?_
    rw [← hr]
    exact List.mem_map.mpr ⟨none, h1, rfl⟩
  | some ys =>
    have h1 := ((mapM_id resid).1 ys).mp hid
    have h2 : resid' = (ys.map fun v : ℝ => c / k * v).map some := by
      rw [← hr, h1]
      simp
    refine lowest_unique (fun x y => ?_) (hlow ys h1) (hlow' _ h2)
    rw [I.scale, I.scale]
    exact (mul_le_mul_iff_right₀ hck).symm

/-! ### What a vanishing misfit means -/

/-- **C84.** Misfits are not negative, and a misfit vanishes exactly if the rescaled trial image and the recorded one differ by the same
amount in every pixel. -/
theorem C84_perfect (img g : Arr2 ℝ) (pg pct p sd : ℝ) (hr : 0 < img.nr) (hc : 0 < img.nc) (h : Misfit img g pg pct p (some sd)) :
    0 ≤ sd ∧ (sd = 0 ↔ ∃ d : ℝ, ∀ i < img.nr, ∀ j < img.nc,
      rescaledAt g pg p i j * (percentile img.pixels pct / percentile (trialImage g pg p).pixels pct) = img.zext i j + d) := by
  obtain ⟨top, -, -, ht, h0, mean, h1, h2⟩ := h
  refine ⟨h0, ?_, ?_⟩
  · rintro rfl
    rw [zero_pow two_ne_zero, mul_zero, eq_comm, Finset.sum_eq_zero_iff_of_nonneg fun _ _ => Finset.sum_nonneg fun _ _ => sq_nonneg _] at h2
    refine ⟨mean * top, fun i hi j hj => ?_⟩
    have h3 := h2 i (Finset.mem_range.mpr hi)
    rw [Finset.sum_eq_zero_iff_of_nonneg fun _ _ => sq_nonneg _] at h3
    have h4 := h3 j (Finset.mem_range.mpr hj)
    rw [sq_eq_zero_iff, sub_eq_zero, div_eq_iff ht] at h4
    linarith
  · rintro ⟨d, hd⟩
    have hnm : (0 : ℝ) < img.nr * img.nc := by positivity
    have hv : ∀ i ∈ Finset.range img.nr, ∀ j ∈ Finset.range img.nc,
        (rescaledAt g pg p i j * (percentile img.pixels pct / percentile (trialImage g pg p).pixels pct) - img.zext i j) / top = d / top := by
      intro i hi j hj
      rw [hd i (Finset.mem_range.mp hi) j (Finset.mem_range.mp hj)]
      congr 1
      ring
    have hmean : mean = d / top := by
      rw [Finset.sum_congr rfl fun i hi => Finset.sum_congr rfl fun j hj => hv i hi j hj] at h1
      simp only [Finset.sum_const, Finset.card_range, nsmul_eq_mul] at h1
      have : (img.nr * img.nc : ℝ) * mean = img.nr * img.nc * (d / top) := by rw [h1]; ring
      exact mul_left_cancel₀ hnm.ne' this
    beta_reduce at h2
    rw [Finset.sum_eq_zero fun i hi => Finset.sum_eq_zero fun j hj => by rw [hv i hi j hj, hmean, sub_self, zero_pow two_ne_zero]] at h2
    have := (mul_eq_zero.mp h2).resolve_left hnm.ne'
    exact pow_eq_zero_iff two_ne_zero |>.mp this

/-- At one pixel per resolution element the trial at the guess is the simulated image. -/
theorem trial_self (N : ℕ) (hN : 0 < N) (f : Fin N → Fin N → ℝ) : trialImage ⟨N, N, f⟩ 1 1 = ⟨N, N, f⟩ := by
  obtain ⟨ref, h1, h2⟩ := trial_eq ⟨N, N, f⟩ 1 1 hN hN one_pos one_pos
  obtain ⟨t, h3, h4⟩ := h2 1 one_pos
  rw [← h4]
  simp only [max_self] at h1 h3
  have hN' : (0 : ℝ) < N := by exact_mod_cast hN
  have key := C18_mft_inverts_imft N hN (fun i j => ((f i j : ℝ) : ℂ)) 1 N one_pos hN' (one_mul _)
  rw [show ((⟨N, N, fun i j => ((f i j : ℝ) : ℂ)⟩ : Arr2 ℂ)) = (⟨N, N, f⟩ : Arr2 ℝ).map fun v : ℝ => (v : ℂ) from rfl, h1] at key
  simp only [Except.bind] at key
  rw [h3] at key
  rw [Except.ok.inj key]
  rfl

/-- **C84.** For square images sampled at one pixel per resolution element and an even number of trials, a recorded image which is the
simulated one at another exposure has misfit zero at the guess, which is the middle plate scale tried. -/
theorem C84_self (I : Interp1d) (N : ℕ) (f : Fin N → Fin N → ℝ) (c w pct step : ℝ) (m : ℕ) (hc : 0 < c)
    (h : PlateArgs (Arr2.map (fun v : ℝ => c * v) ⟨N, N, f⟩) ⟨N, N, f⟩ 1 w ((2 * m : ℕ) : ℝ) pct step) (hpct : percentile (⟨N, N, f⟩ : Arr2 ℝ).pixels pct ≠ 0)
    (htop : ¬ IsBrightest ⟨N, N, f⟩ 0) :
    ∃ best pix resid, platesolv I (Arr2.map (fun v : ℝ => c * v) ⟨N, N, f⟩) ⟨N, N, f⟩ 1 ⟨some w, some ((2 * m : ℕ) : ℝ), some pct, some step⟩ = .ok (best, pix, resid) ∧
      pix[m]? = some 1 ∧ resid[m]? = some (some 0) := by
  obtain ⟨best, pix, resid, h0, hs, h4, hl, hm, -, -⟩ := C84_answer I _ _ _ w _ pct step h
  have hN : 0 < N := h.pixels.1
  refine ⟨best, pix, resid, h0, ?_⟩
  have hm0 : (0 : ℝ) < m := by
    have := h.trials
    push_cast at this
    linarith
  have hmid : (1 : ℝ) * (1 - w) + m * (2 * 1 * w / ((2 * m : ℕ) : ℝ)) = 1 := by
    push_cast
    field_simp
    ring
  have hlen : m < pix.length := (hs.2 m).mpr (by rw [hmid]; linarith [h.widPos])
  have hpm : pix[m] = 1 := by rw [hs.1 m hlen, hmid]
  refine ⟨by rw [List.getElem?_eq_getElem hlen, hpm], ?_⟩
  rw [List.getElem?_eq_getElem (hl ▸ hlen)]
  congr 1
  symm
  refine (hm m hlen (hl ▸ hlen) _).mp ?_
  rw [hpm]
  obtain ⟨top, ht⟩ := top_exists (⟨N, N, f⟩ : Arr2 ℝ) hN hN
  have hT := (top_iff _ top).mp ht
  refine ⟨top, hT, ?_⟩
  rw [trial_self N hN f]
  refine ⟨hpct, fun h0 => htop (h0 ▸ hT), le_refl _, 0, ?_⟩
  rw [pixels_scale, percentile_scale _ _ _ hc]
  have hz : ∀ i ∈ Finset.range N, ∀ j ∈ Finset.range N, (rescaledAt ⟨N, N, f⟩ 1 1 i j * (c * percentile (⟨N, N, f⟩ : Arr2 ℝ).pixels pct / percentile (⟨N, N, f⟩ : Arr2 ℝ).pixels pct) -
      (Arr2.map (fun v : ℝ => c * v) ⟨N, N, f⟩).zext i j) / top = 0 := by
    intro i hi j hj
    have e : (trialImage ⟨N, N, f⟩ 1 1).val ⟨i, Finset.mem_range.mp hi⟩ ⟨j, Finset.mem_range.mp hj⟩ = f ⟨i, Finset.mem_range.mp hi⟩ ⟨j, Finset.mem_range.mp hj⟩ := by
      have := trial_self N hN f
      unfold trialImage at this ⊢
      simp only [Arr2.mk.injEq, heq_eq_eq, true_and] at this
      exact congrFun (congrFun this _) _
    have e' : rescaledAt ⟨N, N, f⟩ 1 1 i j = f ⟨i, Finset.mem_range.mp hi⟩ ⟨j, Finset.mem_range.mp hj⟩ := e
    have e2 : (⟨N, N, f⟩ : Arr2 ℝ).zext i j = f ⟨i, Finset.mem_range.mp hi⟩ ⟨j, Finset.mem_range.mp hj⟩ := by
      unfold Arr2.zext
      have := Arr2.px_val (⟨N, N, f⟩ : Arr2 ℝ) ⟨i, Finset.mem_range.mp hi⟩ ⟨j, Finset.mem_range.mp hj⟩
      simp only at this
      rw [this]
      rfl
    rw [zext_scale, e', e2]
    rw [mul_div_assoc, div_self hpct, mul_one]
    ring
  constructor
  · rw [mul_zero]
    exact (Finset.sum_eq_zero fun i hi => Finset.sum_eq_zero fun j hj => hz i hi j hj).symm
  · rw [zero_pow two_ne_zero, mul_zero]
    exact (Finset.sum_eq_zero fun i hi => Finset.sum_eq_zero fun j hj => by beta_reduce; rw [hz i hi j hj, sub_self, zero_pow two_ne_zero]).symm

/-! ### Errors -/

theorem mapM_each {α β : Type} (f : α → Res β) (l : List α) (o : List β) (h : l.mapM f = .ok o) : ∀ x ∈ l, ∃ y, f x = .ok y := by
  induction l generalizing o with
  | nil => intro x hx; cases hx
  | cons a l ih =>
    rw [List.mapM_cons] at h
    obtain ⟨y, hy, h⟩ := res_bind_ok h
    obtain ⟨ys, hys, -⟩ := res_bind_ok h
    intro x hx
    rcases List.mem_cons.mp hx with rfl | hx
    · exact ⟨y, hy⟩
    · exact ih ys hys x hx

theorem mftChecks_inv {o0 o1 : ℤ} {ppl ppp : ℝ} (h : mftChecks o0 o1 ppl ppp = .ok ()) : MftArgs o0 o1 ppl ppp := by
  unfold mftChecks at h
  split at h
  · cases h
  split at h
  · cases h
  split at h
  · cases h
  split at h
  · cases h
  next h1 h2 h3 h4 => exact ⟨not_le.mp h3, not_le.mp h4, not_le.mp h1, not_le.mp h2⟩

/-- **C84.** For a positive search width the search answers exactly on the arguments `PlateArgs` describes. -/
theorem C84_accepts (I : Interp1d) (img guess : Arr2 ℝ) (pg w n pct step : ℝ) (hw : 0 < w) :
    (∃ out, platesolv I img guess pg ⟨some w, some n, some pct, some step⟩ = .ok out) ↔ PlateArgs img guess pg w n pct step := by
  constructor
  · rintro ⟨out, h⟩
    unfold platesolv at h
    by_cases h1 : pg ≤ 0
    · rw [if_pos h1] at h; cases h
    rw [if_neg h1] at h
    by_cases h2 : img.nr ≠ guess.nr ∨ img.nc ≠ guess.nc
    · rw [if_pos h2] at h; cases h
    rw [if_neg h2] at h
    simp only at h
    by_cases h3 : n = 0
    · rw [if_pos h3] at h; cases h
    rw [if_neg h3] at h
    push Not at h1 h2
    obtain ⟨pix, hpix, h⟩ := res_bind_ok h
    obtain ⟨ref, href, h⟩ := res_bind_ok h
    obtain ⟨resid, hres, h⟩ := res_bind_ok h
    have hg : 0 < guess.nr ∧ 0 < guess.nc := by
      unfold doImft at href
      obtain ⟨⟨⟩, hc, -⟩ := res_bind_ok href
      have := mftChecks_inv hc
      exact ⟨by exact_mod_cast this.rows, by exact_mod_cast this.cols⟩
    cases hmin : pix.min? with
    | none => rw [hmin] at h; cases h
    | some lo =>
      cases hmax : pix.max? with
      | none => rw [hmin, hmax] at h; cases h
      | some hi =>
        rw [hmin, hmax] at h
        simp only at h
        obtain ⟨xs, hxs, h⟩ := res_bind_ok h
        by_cases h4 : pix.length < 4
        · rw [if_pos h4] at h; cases h
        rw [if_neg h4] at h
        by_cases h5 : xs = []
        · rw [if_pos h5] at h; cases h
        have hlohi : lo ≤ hi := by
          obtain ⟨hl, -⟩ := List.min?_eq_some_iff.mp hmin
          exact (List.max?_eq_some_iff.mp hmax).2 lo hl
        have hstep : 0 < step := by
          unfold arange at hxs
          by_cases hs : step = 0
          · rw [if_pos hs] at hxs; cases hxs
          rw [if_neg hs] at hxs
          by_contra hneg
          push Not at hneg
          refine h5 ?_
          rw [← Except.ok.inj hxs, List.map_eq_nil_iff, List.range_eq_nil, Int.toNat_eq_zero, Int.ceil_le]
          push_cast
          exact div_nonpos_of_nonneg_of_nonpos (sub_nonneg.mpr hlohi) hneg
        have hpw : 0 < pg * w := mul_pos h1 hw
        have hn : 3 < n := by
          unfold arange at hpix
          rw [if_neg (div_ne_zero hpw.ne' (div_ne_zero h3 two_ne_zero))] at hpix
          have hl : pix.length = ⌈(pg + pg * w - (pg - pg * w)) / (pg * w / (n / 2))⌉.toNat := by
            rw [← Except.ok.inj hpix]
            simp
          have : 3 < ⌈(pg + pg * w - (pg - pg * w)) / (pg * w / (n / 2))⌉.toNat := by omega
          rw [Int.lt_toNat, Int.lt_ceil] at this
          push_cast at this
          have e : (pg + pg * w - (pg - pg * w)) / (pg * w / (n / 2)) = n := by
            have := hw.ne'
            have := h1.ne'
            field_simp
            ring
          rwa [e] at this
        obtain ⟨l, hl, hk, -, -⟩ := arange_ok .zeroDivisionError (pg - pg * w) (pg + pg * w) (pg * w / (n / 2)) (div_pos hpw (by linarith))
        rw [hpix] at hl
        obtain rfl := Except.ok.inj hl
        have h0 : 0 < pix.length := by omega
        obtain ⟨r, hr⟩ := mapM_each _ _ _ hres pix[0] (List.getElem_mem h0)
        unfold plateResidual at hr
        obtain ⟨t, ht, hr⟩ := res_bind_ok hr
        have hp : (0 : ℝ) < pix[0] := by
          by_contra hp
          rw [C18_mft_rejects _ _ _ _ _ fun hh => hp hh.1.lod] at ht
          cases ht
        by_cases hpc : pct < 0 ∨ 100 < pct
        · rw [if_pos hpc] at hr; cases hr
        push Not at hpc
        rw [hk 0 h0] at hp
        refine ⟨h1, h2.1, h2.2, hg, hw, ?_, hn, hpc.1, hpc.2, hstep⟩
        have : 0 < pg * (1 - w) := by
          push_cast at hp
          linarith
        have := (mul_pos_iff_of_pos_left h1).mp this
        linarith
  · intro h
    obtain ⟨best, pix, resid, h0, -⟩ := C84_answer I img guess pg w n pct step h
    exact ⟨_, h0⟩

/-- **C84.** A plate scale guess which is not positive, images of different shapes and a parameter file without one of the four entries
raise `PlateSolvException`. -/
theorem C84_rejects (I : Interp1d) (img guess : Arr2 ℝ) (pg : ℝ) (c : PlateConsts)
    (h : pg ≤ 0 ∨ img.nr ≠ guess.nr ∨ img.nc ≠ guess.nc ∨ c.psWid = none ∨ c.nTrials = none ∨ c.percentileVal = none ∨ c.interpStep = none) :
    platesolv I img guess pg c = .error plateSolvException := by
  unfold platesolv
  by_cases h1 : pg ≤ 0
  · rw [if_pos h1]
  rw [if_neg h1]
  by_cases h2 : img.nr ≠ guess.nr ∨ img.nc ≠ guess.nc
  · rw [if_pos h2]
  rw [if_neg h2]
  obtain ⟨a, b, d, e⟩ := c
  cases a with
  | none => rfl
  | some a =>
    cases b with
    | none => rfl
    | some b =>
      cases d with
      | none => rfl
      | some d =>
        cases e with
        | none => rfl
        | some e =>
          simp only [reduceCtorEq, or_false] at h
          exact absurd h (by tauto)

end Coralign.Props
