import Verif.Lemmas.RectProper
import Verif.Lemmas.PadCrop
import Verif.Props.Shapes

/-!
# Property C86: the scan-converted rectangle
-/

namespace Coralign.Props

open Coralign Coralign.Spec

theorem lineCover_shift (P Q : ℝ → ℝ → Prop) (x y y' a : ℝ) (h : ∀ t, P t y ↔ Q (t - a) y') : lineCover P x y = lineCover Q (x - a) y' := by
  unfold lineCover
  have e : {t : ℝ | |t - x| ≤ 1 / 2 ∧ P t y} = (fun t => t + -a) ⁻¹' {t : ℝ | |t - (x - a)| ≤ 1 / 2 ∧ Q t y'} := by
    ext t
    simp only [Set.mem_ofPred_eq, Set.mem_preimage, h t]
    rw [show t + -a - (x - a) = t - x by ring, show t + -a = t - a by ring]
  rw [e, MeasureTheory.measure_preimage_add_right]

theorem lineCover_nonneg (P : ℝ → ℝ → Prop) (x y : ℝ) : 0 ≤ lineCover P x y := ENNReal.toReal_nonneg

theorem lineCover_le_one (P : ℝ → ℝ → Prop) (x y : ℝ) : lineCover P x y ≤ 1 := by
  unfold lineCover
  have hsub : {t : ℝ | |t - x| ≤ 1 / 2 ∧ P t y} ⊆ Set.Icc (x - 1 / 2) (x + 1 / 2) := by
    rintro t ⟨h, -⟩
    rw [abs_le] at h
    exact ⟨by linarith, by linarith⟩
  have h1 := MeasureTheory.measure_mono (μ := MeasureTheory.volume) hsub
  rw [Real.volume_Icc, show x + 1 / 2 - (x - 1 / 2) = (1 : ℝ) by ring, ENNReal.ofReal_one] at h1
  have := ENNReal.toReal_mono ENNReal.one_ne_top h1
  simpa using this

theorem lineCover_full (P : ℝ → ℝ → Prop) (x y : ℝ) (h : ∀ t, |t - x| ≤ 1 / 2 → P t y) : lineCover P x y = 1 := by
  unfold lineCover
  have e : {t : ℝ | |t - x| ≤ 1 / 2 ∧ P t y} = Set.Icc (x - 1 / 2) (x + 1 / 2) := by
    ext t
    simp only [Set.mem_ofPred_eq, Set.mem_Icc]
    constructor
    · rintro ⟨h, -⟩
      rw [abs_le] at h
      exact ⟨by linarith, by linarith⟩
    · rintro ⟨h1, h2⟩
      have : |t - x| ≤ 1 / 2 := abs_le.mpr ⟨by linarith, by linarith⟩
      exact ⟨this, h t this⟩
  rw [e, Real.volume_Icc, show x + 1 / 2 - (x - 1 / 2) = (1 : ℝ) by ring]
  simp

theorem lineCover_off (P : ℝ → ℝ → Prop) (x y : ℝ) (h : ∀ t, |t - x| ≤ 1 / 2 → ¬ P t y) : lineCover P x y = 0 := by
  unfold lineCover
  have e : {t : ℝ | |t - x| ≤ 1 / 2 ∧ P t y} = ∅ := by
    ext t
    simp only [Set.mem_ofPred_eq, Set.mem_empty_iff_false, iff_false, not_and]
    exact h t
  rw [e]
  simp

/-- The image before the crop, in pixels of the square working array. -/
theorem scan_image (n : ℤ) (N : ℕ) (hN : 1 ≤ N) (w h xo yo rot : ℝ) (hw : 0 < w) (hh : 0 < h) (i j : ℤ) (hi0 : 0 ≤ i) (hi1 : i < n)
    (hj0 : 0 ≤ j) (hj1 : j < n) (xc yc : ℤ) :
    (scanRows (rectCorners (0.5 * w) (0.5 * h) (rot * Real.pi / 180) (xo + xc) (yo + yc)) n N
        (scanRange (rectCorners (0.5 * w) (0.5 * h) (rot * Real.pi / 180) (xo + xc) (yo + yc)) n)
        ⟨startCorner (rectCorners (0.5 * w) (0.5 * h) (rot * Real.pi / 180) (xo + xc) (yo + yc)),
          startCorner (rectCorners (0.5 * w) (0.5 * h) (rot * Real.pi / 180) (xo + xc) (yo + yc)), fun _ _ => 0⟩).img i j / (N : ℝ) ^ 2 =
      stripMean N (inRect w h rot) (((j - xc : ℤ) : ℝ) - xo) (((i - yc : ℤ) : ℝ) - yo) := by
  obtain ⟨i0, i1, i2, i3, hstart, hch, hins⟩ := rect_chain (0.5 * w) (0.5 * h) (rot * Real.pi / 180) (xo + xc) (yo + yc) (by linarith) (by linarith)
  have hNr : (0 : ℝ) < N := by exact_mod_cast hN
  rw [hstart]
  generalize hc : rectCorners (0.5 * w) (0.5 * h) (rot * Real.pi / 180) (xo + xc) (yo + yc) = c at *
  -- the rows of the range
  obtain ⟨imin, himin⟩ : ∃ m : ℤ, m = if npRound (min4 c.yp) < 0 then 0 else npRound (min4 c.yp) := ⟨_, rfl⟩
  obtain ⟨imax, himax⟩ : ∃ m : ℤ, m = if npRound (max4 c.yp) + 1 ≥ n then n else npRound (max4 c.yp) + 1 := ⟨_, rfl⟩
  have hrange : scanRange c n = (List.range (imax - imin).toNat).map fun k : ℕ => imin + k := by
    unfold scanRange
    simp only
    rw [← himin, ← himax]
  have hmem : ∀ r : ℤ, r ∈ scanRange c n ↔ imin ≤ r ∧ r < imax := by
    intro r
    rw [hrange, List.mem_map]
    constructor
    · rintro ⟨k, hk, rfl⟩
      rw [List.mem_range] at hk
      omega
    · rintro ⟨h1, h2⟩
      exact ⟨(r - imin).toNat, List.mem_range.mpr (by omega), by omega⟩
  have hsorted : (scanRange c n).Pairwise (· < ·) := by
    rw [hrange, List.pairwise_map]
    refine List.Pairwise.imp ?_ List.pairwise_lt_range
    intro a b hab
    omega
  have himg := scanRows_spec hch n N hN (scanRange c n) ⟨i0, i0, fun _ _ => 0⟩ ((imin : ℝ) - 1 / 2) ⟨Or.inl rfl, Or.inl rfl⟩ (fun r hr => by
    have : (imin : ℝ) ≤ r := by exact_mod_cast ((hmem r).mp hr).1
    linarith) hsorted i j hj0 hj1
  rw [himg, zero_add]
  -- rows outside the range are empty
  have hsum : (if i ∈ scanRange c n then ∑ k ∈ Finset.range N, (N : ℝ) * lineCover (c.inside i0 i1 i3) j (subRow N i k) else 0) =
      ∑ k ∈ Finset.range N, (N : ℝ) * lineCover (c.inside i0 i1 i3) j (subRow N i k) := by
    by_cases hir : i ∈ scanRange c n
    · rw [if_pos hir]
    · rw [if_neg hir]
      symm
      apply Finset.sum_eq_zero
      intro k hk
      have hk' : (k : ℝ) + 1 ≤ N := by exact_mod_cast Finset.mem_range.mp hk
      have b1 : 0 < (0.5 + (k : ℝ)) / N := by positivity
      have b2 : (0.5 + (k : ℝ)) / N < 1 := by rw [div_lt_one hNr]; linarith
      rw [lineCover_none _ _ _ ?_, mul_zero]
      intro t ht
      obtain ⟨h1, h2⟩ := hch.inside_height t _ ht
      rw [hmem] at hir
      unfold subRow at h1 h2
      by_cases hlo : imin ≤ i
      · have hge : imax ≤ i := by by_contra hcon; exact hir ⟨hlo, by omega⟩
        by_cases hcap : npRound (max4 c.yp) + 1 ≥ n
        · rw [if_pos hcap] at himax; omega
        · rw [if_neg hcap] at himax
          have hb := abs_le.mp (abs_sub_npRound_le (max4 c.yp))
          have hz : ((npRound (max4 c.yp) : ℤ) : ℝ) + 1 ≤ i := by exact_mod_cast himax ▸ hge
          rw [hch.high] at hb hz
          linarith [hb.2]
      · by_cases hneg : npRound (min4 c.yp) < 0
        · rw [if_pos hneg] at himin; omega
        · rw [if_neg hneg] at himin
          have hb := abs_le.mp (abs_sub_npRound_le (min4 c.yp))
          have hz : (i : ℝ) + 1 ≤ (npRound (min4 c.yp) : ℤ) := by exact_mod_cast (show i + 1 ≤ npRound (min4 c.yp) by omega)
          rw [hch.low] at hb hz
          linarith [hb.1]
  rw [hsum, ← Finset.mul_sum]
  unfold stripMean
  rw [Finset.sum_range]
  have hterm : ∀ s : Fin N, lineCover (c.inside i0 i1 i3) j (subRow N i s) = lineCover (inRect w h rot) (((j - xc : ℤ) : ℝ) - xo)
      (((i - yc : ℤ) : ℝ) - yo + (((s : ℕ) + 1 / 2 : ℝ) / N - 1 / 2)) := by
    intro s
    have e := lineCover_shift (c.inside i0 i1 i3) (inRect w h rot) (j : ℝ) (subRow N i s)
      (((i - yc : ℤ) : ℝ) - yo + (((s : ℕ) + 1 / 2 : ℝ) / N - 1 / 2)) (xo + xc) (by
        intro t
        rw [hins t]
        unfold inRect turnedX turnedY subRow
        have ey : ((i : ℝ) - 0.5 + (0.5 + ((s : ℕ) : ℝ)) / N - (yo + yc)) = ((i - yc : ℤ) : ℝ) - yo + (((s : ℕ) + 1 / 2 : ℝ) / N - 1 / 2) := by
          push_cast
          rw [add_comm (0.5 : ℝ), show (0.5 : ℝ) = 1 / 2 by norm_num]
          ring
        rw [ey, show (0.5 : ℝ) * w = w / 2 by ring, show (0.5 : ℝ) * h = h / 2 by ring])
    rw [e]
    congr 1
    push_cast
    ring
  rw [Finset.sum_congr rfl fun s _ => hterm s, pow_two, mul_div_mul_left _ _ hNr.ne']

theorem square_centered (n : ℕ) (F : ℤ → ℤ → ℝ) (k l : ℤ) (h : (0 ≤ (n : ℤ) / 2 + k ∧ (n : ℤ) / 2 + k < n) ∧ (0 ≤ (n : ℤ) / 2 + l ∧ (n : ℤ) / 2 + l < n)) :
    (⟨n, n, fun i j => F (i : ℕ) (j : ℕ)⟩ : Arr2 ℝ).centered k l = some (F ((n : ℤ) / 2 + k) ((n : ℤ) / 2 + l)) := by
  unfold Arr2.centered
  rw [Arr2.px_of_inB _ h]
  simp only
  rw [Int.toNat_of_nonneg h.1.1, Int.toNat_of_nonneg h.2.1]

/-- Cropping the square working array leaves every pixel where it was relative to the centre. -/
theorem crop_image (nx ny : ℕ) (hx : 1 ≤ nx) (hy : 1 ≤ ny) (xo yo : ℝ) (v : ℝ → ℝ → ℝ) (isDark : Bool) (F : ℤ → ℤ → ℝ)
    (hF : ∀ i j : ℤ, 0 ≤ i → i < max (nx : ℤ) ny → 0 ≤ j → j < max (nx : ℤ) ny →
      F i j = v (((j - max (nx : ℤ) ny / 2 : ℤ) : ℝ) - xo) (((i - max (nx : ℤ) ny / 2 : ℤ) : ℝ) - yo)) :
    IsImage (.ok (darken isDark (embed ⟨(max (nx : ℤ) ny).toNat, (max (nx : ℤ) ny).toNat, fun i j => F (i : ℕ) (j : ℕ)⟩ ny nx 0))) nx ny xo yo
      (fun x y => tone isDark (v x y)) := by
  have hmap : ∀ a : Arr2 ℝ, darken isDark (embed a ny nx 0) = (embed a ny nx 0).map (tone isDark) := by
    intro a
    unfold embed Arr2.ofFn
    rw [darken_eq]
    rfl
  rw [hmap]
  refine ⟨_, rfl, rfl, rfl, ?_⟩
  intro k l hr
  have hcen := embed_centered (⟨(max (nx : ℤ) ny).toNat, (max (nx : ℤ) ny).toNat, fun i j => F (i : ℕ) (j : ℕ)⟩ : Arr2 ℝ) ny nx 0 hr
  unfold Reaches at hr
  have en : (((max (nx : ℤ) ny).toNat : ℕ) : ℤ) = max (nx : ℤ) ny := by omega
  rw [square_centered _ F k l (by rw [en]; omega), en, Option.getD_some,
    hF _ _ (by omega) (by omega) (by omega) (by omega), show max (nx : ℤ) ny / 2 + l - max (nx : ℤ) ny / 2 = l by ring,
    show max (nx : ℤ) ny / 2 + k - max (nx : ℤ) ny / 2 = k by ring] at hcen
  unfold Arr2.centered at hcen ⊢
  rw [Arr2.px_map]
  have e : ∀ a : Arr2 ℝ, (a.map (tone isDark)).nr = a.nr ∧ (a.map (tone isDark)).nc = a.nc := fun _ => ⟨rfl, rfl⟩
  rw [(e _).1, (e _).2, hcen]
  rfl

/-- **C86.** For every accepted input the scan converter returns the strip mean of the rectangle: in each pixel the mean, over the centre lines of its
`nSubpixels` strips, of the exact length of the line inside the rectangle (of its complement when `isDark`), whatever the size, offset and
angle, and whether or not the rectangle is inside the array. -/
theorem C86_exact (nx ny N : ℕ) (hx : 1 ≤ nx) (hy : 1 ≤ ny) (hN : 1 ≤ N) (w h xo yo rot : ℝ) (hw : 0 < w) (hh : 0 < h) (isDark : Bool) :
    IsImage (rectProper nx ny w h xo yo rot N isDark) nx ny xo yo (fun x y => tone isDark (stripMean N (inRect w h rot) x y)) := by
  unfold rectProper
  rw [if_neg (by rintro (h | h | h | h | h) <;> first | omega | linarith)]
  simp only [Int.toNat_natCast]
  rw [padCrop_eq _ _ _ _ (by omega) (by omega)]
  simp only [bind, Except.bind, Int.toNat_natCast]
  exact crop_image nx ny hx hy xo yo (stripMean N (inRect w h rot)) isDark (fun i j => (scanRows _ _ _ _ _).img i j / (N : ℝ) ^ 2)
    (fun i j hi0 hi1 hj0 hj1 => scan_image (max (nx : ℤ) ny) N hN w h xo yo rot hw hh i j hi0 hi1 hj0 hj1 _ _)

/-- **C86.** Sizes, lengths and sub-pixel counts that are not positive are refused with a `TypeError`, and nothing else is: unlike `rectangle`, the
scan converter accepts arrays of a single column. -/
theorem C86_rejects (nx ny N : ℤ) (w h xo yo rot : ℝ) (isDark : Bool) :
    rectProper nx ny w h xo yo rot N isDark = .error .typeError ↔ nx ≤ 0 ∨ ny ≤ 0 ∨ w ≤ 0 ∨ h ≤ 0 ∨ N ≤ 0 := by
  constructor
  · intro he
    by_contra hcon
    push Not at hcon
    obtain ⟨h1, h2, h3, h4, h5⟩ := hcon
    obtain ⟨nx', rfl⟩ : ∃ n : ℕ, nx = n := ⟨nx.toNat, by omega⟩
    obtain ⟨ny', rfl⟩ : ∃ n : ℕ, ny = n := ⟨ny.toNat, by omega⟩
    obtain ⟨N', rfl⟩ : ∃ n : ℕ, N = n := ⟨N.toNat, by omega⟩
    obtain ⟨o, ho, -⟩ := C86_exact nx' ny' N' (by omega) (by omega) (by omega) w h xo yo rot h3 h4 isDark
    rw [ho] at he
    cases he
  · intro hc
    unfold rectProper
    rw [if_pos hc]

theorem stripMean_range (N : ℕ) (hN : 1 ≤ N) (P : ℝ → ℝ → Prop) (x y : ℝ) : 0 ≤ stripMean N P x y ∧ stripMean N P x y ≤ 1 := by
  have hNr : (0 : ℝ) < N := by exact_mod_cast hN
  unfold stripMean
  constructor
  · exact div_nonneg (Finset.sum_nonneg fun s _ => lineCover_nonneg _ _ _) hNr.le
  · rw [div_le_one hNr]
    calc _ ≤ ∑ _s : Fin N, (1 : ℝ) := Finset.sum_le_sum fun s _ => lineCover_le_one _ _ _
      _ = N := by simp

/-- **C86.** Every pixel is in `[0, 1]`. -/
theorem C86_range (nx ny N : ℕ) (hx : 1 ≤ nx) (hy : 1 ≤ ny) (hN : 1 ≤ N) (w h xo yo rot : ℝ) (hw : 0 < w) (hh : 0 < h) (isDark : Bool)
    (o : Arr2 ℝ) (ho : rectProper nx ny w h xo yo rot N isDark = .ok o) (k l : ℤ) (hr : Reaches ny nx k l) :
    ∃ v, o.centered k l = some v ∧ 0 ≤ v ∧ v ≤ 1 := by
  obtain ⟨o', ho', -, -, hv⟩ := C86_exact nx ny N hx hy hN w h xo yo rot hw hh isDark
  rw [ho] at ho'
  obtain rfl := Except.ok.inj ho'
  refine ⟨_, hv k l hr, ?_⟩
  have := stripMean_range N hN (inRect w h rot) (l - xo) (k - yo)
  unfold tone
  split_ifs <;> constructor <;> linarith [this.1, this.2]

/-- The centre lines of the strips are inside the pixel. -/
theorem strip_inside (N : ℕ) (s : Fin N) : |(((s : ℕ) + 1 / 2 : ℝ) / N - 1 / 2)| ≤ 1 / 2 := by
  have h1 : ((s : ℕ) : ℝ) + 1 ≤ N := by exact_mod_cast s.2
  have hN : (0 : ℝ) < N := by linarith [Nat.cast_nonneg (α := ℝ) (s : ℕ)]
  have h2 : 0 ≤ (((s : ℕ) : ℝ) + 1 / 2) / N := by positivity
  have h3 : (((s : ℕ) : ℝ) + 1 / 2) / N ≤ 1 := by rw [div_le_one hN]; linarith
  rw [abs_le]
  constructor <;> linarith

/-- **C86.** A pixel wholly inside the rectangle is exactly 1 and a pixel that does not meet it exactly 0 (0 and 1 when `isDark`). -/
theorem C86_inside_outside (nx ny N : ℕ) (hx : 1 ≤ nx) (hy : 1 ≤ ny) (hN : 1 ≤ N) (w h xo yo rot : ℝ) (hw : 0 < w) (hh : 0 < h) (isDark : Bool)
    (o : Arr2 ℝ) (ho : rectProper nx ny w h xo yo rot N isDark = .ok o) (k l : ℤ) (hr : Reaches ny nx k l) :
    ((∀ x y : ℝ, |x - l| ≤ 1 / 2 → |y - k| ≤ 1 / 2 → inRect w h rot (x - xo) (y - yo)) → o.centered k l = some (if isDark then 0 else 1)) ∧
    ((∀ x y : ℝ, |x - l| ≤ 1 / 2 → |y - k| ≤ 1 / 2 → ¬ inRect w h rot (x - xo) (y - yo)) → o.centered k l = some (if isDark then 1 else 0)) := by
  obtain ⟨o', ho', -, -, hv⟩ := C86_exact nx ny N hx hy hN w h xo yo rot hw hh isDark
  rw [ho] at ho'
  obtain rfl := Except.ok.inj ho'
  have hNr : (0 : ℝ) < N := by exact_mod_cast hN
  have hpt : ∀ (s : Fin N) (t : ℝ), |t - ((l : ℝ) - xo)| ≤ 1 / 2 → |(t + xo) - l| ≤ 1 / 2 ∧
      |((k : ℝ) - yo + (((s : ℕ) + 1 / 2 : ℝ) / N - 1 / 2) + yo) - k| ≤ 1 / 2 := by
    intro s t ht
    rw [show (t + xo) - l = t - (l - xo) by ring,
      show ((k : ℝ) - yo + (((s : ℕ) + 1 / 2 : ℝ) / N - 1 / 2) + yo) - k = ((s : ℕ) + 1 / 2 : ℝ) / N - 1 / 2 by ring]
    exact ⟨ht, strip_inside N s⟩
  constructor
  · intro hin
    rw [hv k l hr]
    have : stripMean N (inRect w h rot) (l - xo) (k - yo) = 1 := by
      unfold stripMean
      rw [Finset.sum_congr rfl fun s _ => lineCover_full (inRect w h rot) _ _ fun t ht => by
        have := hin _ _ (hpt s t ht).1 (hpt s t ht).2
        rwa [add_sub_cancel_right, add_sub_cancel_right] at this]
      simp [hNr.ne']
    simp only [this, tone, sub_self]
  · intro hout
    rw [hv k l hr]
    have : stripMean N (inRect w h rot) (l - xo) (k - yo) = 0 := by
      unfold stripMean
      rw [Finset.sum_congr rfl fun s _ => lineCover_off (inRect w h rot) _ _ fun t ht hc => by
        have := hout _ _ (hpt s t ht).1 (hpt s t ht).2
        rw [add_sub_cancel_right, add_sub_cancel_right] at this
        exact this hc]
      simp
    simp only [this, tone, sub_zero]

theorem inRect_half (w h rot x y : ℝ) : inRect w h (rot + 180) x y ↔ inRect w h rot x y := by
  have e : (rot + 180) * Real.pi / 180 = rot * Real.pi / 180 + Real.pi := by ring
  unfold inRect turnedX turnedY
  rw [e, Real.cos_add_pi, Real.sin_add_pi,
    show x * -Real.cos (rot * Real.pi / 180) + y * -Real.sin (rot * Real.pi / 180) =
      -(x * Real.cos (rot * Real.pi / 180) + y * Real.sin (rot * Real.pi / 180)) by ring,
    show y * -Real.cos (rot * Real.pi / 180) - x * -Real.sin (rot * Real.pi / 180) =
      -(y * Real.cos (rot * Real.pi / 180) - x * Real.sin (rot * Real.pi / 180)) by ring, abs_neg, abs_neg]

theorem inRect_quarter (w h rot x y : ℝ) : inRect h w (rot + 90) x y ↔ inRect w h rot x y := by
  have e : (rot + 90) * Real.pi / 180 = rot * Real.pi / 180 + Real.pi / 2 := by ring
  unfold inRect turnedX turnedY
  rw [e, Real.cos_add_pi_div_two, Real.sin_add_pi_div_two,
    show x * -Real.sin (rot * Real.pi / 180) + y * Real.cos (rot * Real.pi / 180) =
      y * Real.cos (rot * Real.pi / 180) - x * Real.sin (rot * Real.pi / 180) by ring,
    show y * -Real.sin (rot * Real.pi / 180) - x * Real.cos (rot * Real.pi / 180) =
      -(x * Real.cos (rot * Real.pi / 180) + y * Real.sin (rot * Real.pi / 180)) by ring, abs_neg, and_comm]

/-- Two images with the same pixel values are the same array. -/
theorem IsImage.eq {r r' : Res (Arr2 ℝ)} {nx ny : ℤ} {xo yo : ℝ} {v v' : ℝ → ℝ → ℝ} (h : IsImage r nx ny xo yo v)
    (h' : IsImage r' nx ny xo yo v') (hv : ∀ x y, v x y = v' x y) : r = r' := by
  obtain ⟨o, rfl, h1, h2, h3⟩ := h
  obtain ⟨o', rfl, h1', h2', h3'⟩ := h'
  congr 1
  refine Arr2.ext_px (by omega) (by omega) fun i j hi0 hi1 hj0 hj1 => ?_
  have hr : Reaches ny nx (i - ny / 2) (j - nx / 2) := by unfold Reaches; omega
  have a := h3 _ _ hr
  have b := h3' _ _ hr
  unfold Arr2.centered at a b
  rw [h1, h2, show ny / 2 + (i - ny / 2) = i by ring, show nx / 2 + (j - nx / 2) = j by ring] at a
  rw [h1', h2', show ny / 2 + (i - ny / 2) = i by ring, show nx / 2 + (j - nx / 2) = j by ring] at b
  rw [a, b, hv]

/-- **C86.** The corner the scan starts from depends on the angle, but the image only on the figure: a half turn changes nothing, and a quarter turn is
the same as exchanging width and height. -/
theorem C86_turns (nx ny N : ℕ) (hx : 1 ≤ nx) (hy : 1 ≤ ny) (hN : 1 ≤ N) (w h xo yo rot : ℝ) (hw : 0 < w) (hh : 0 < h) (isDark : Bool) :
    rectProper nx ny w h xo yo (rot + 180) N isDark = rectProper nx ny w h xo yo rot N isDark ∧
    rectProper nx ny h w xo yo (rot + 90) N isDark = rectProper nx ny w h xo yo rot N isDark := by
  constructor
  · refine (C86_exact nx ny N hx hy hN w h xo yo (rot + 180) hw hh isDark).eq (C86_exact nx ny N hx hy hN w h xo yo rot hw hh isDark) fun x y => ?_
    have e : inRect w h (rot + 180) = inRect w h rot := by
      funext x y; exact propext (inRect_half w h rot x y)
    rw [e]
  · refine (C86_exact nx ny N hx hy hN h w xo yo (rot + 90) hh hw isDark).eq (C86_exact nx ny N hx hy hN w h xo yo rot hw hh isDark) fun x y => ?_
    have e : inRect h w (rot + 90) = inRect w h rot := by
      funext x y; exact propext (inRect_quarter w h rot x y)
    rw [e]

/-- A concrete case: an upright rectangle one and a half pixels wide in a single row of three pixels is a quarter, one and a quarter, whatever the
number of strips. -/
example (N : ℕ) (hN : 1 ≤ N) : ∃ o : Arr2 ℝ, rectProper 3 1 (3 / 2) 1 0 0 0 N false = .ok o ∧
    o.centered 0 (-1) = some (1 / 4) ∧ o.centered 0 0 = some 1 ∧ o.centered 0 1 = some (1 / 4) := by
  obtain ⟨o, ho, -, -, hv⟩ := C86_exact 3 1 N (by norm_num) le_rfl hN (3 / 2) 1 0 0 0 (by norm_num) one_pos false
  have hNr : (0 : ℝ) < N := by exact_mod_cast hN
  have hval : ∀ x : ℝ, stripMean N (inRect (3 / 2) 1 0) x 0 = overlap (-(3 / 4)) (3 / 4) x := by
    intro x
    unfold stripMean
    rw [Finset.sum_congr rfl fun s _ => lineCover_overlap (inRect (3 / 2) 1 0) x _ (-(3 / 4)) (3 / 4) fun t => by
      have := strip_inside N s
      unfold inRect turnedX turnedY
      rw [zero_mul, zero_div, Real.cos_zero, Real.sin_zero, mul_zero, mul_zero, mul_one, mul_one, add_zero, sub_zero, zero_add, abs_le (a := t)]
      constructor
      · rintro ⟨⟨h1, h2⟩, -⟩
        exact ⟨by linarith, by linarith⟩
      · rintro ⟨h1, h2⟩
        exact ⟨⟨by linarith, by linarith⟩, this⟩]
    rw [Finset.sum_const, Finset.card_univ, Fintype.card_fin, nsmul_eq_mul]
    field_simp
  refine ⟨o, ho, ?_, ?_, ?_⟩
  · rw [hv 0 (-1) (by unfold Reaches; norm_num)]
    simp only [tone, Int.cast_zero, sub_zero, hval, overlap, Bool.false_eq_true, if_false]
    norm_num
  · rw [hv 0 0 (by unfold Reaches; norm_num)]
    simp only [tone, Int.cast_zero, sub_zero, hval, overlap, Bool.false_eq_true, if_false]
    norm_num
  · rw [hv 0 1 (by unfold Reaches; norm_num)]
    simp only [tone, Int.cast_zero, sub_zero, hval, overlap, Bool.false_eq_true, if_false]
    norm_num

end Coralign.Props
