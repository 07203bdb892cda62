import Verif.Props.PlateSolv
import Verif.Props.Refusals5

/-!
# C97: refusals of the plate-scale search
-/

namespace Coralign.Props

open Coralign Coralign.Spec

theorem plate_pix (pg w n : ℝ) (hg : 0 < pg) (hw : 0 < w) (hn : n ≠ 0) :
    ∃ pix, arange .zeroDivisionError (pg - pg * w) (pg + pg * w) (pg * w / (n / 2)) = .ok pix ∧ pix.length = ⌈n⌉.toNat ∧
      ∀ k (h : k < pix.length), pix[k] = pg - pg * w + k * (pg * w / (n / 2)) := by
  have e : (pg + pg * w - (pg - pg * w)) / (pg * w / (n / 2)) = n := by
    have := hw.ne'
    have := hg.ne'
    field_simp
    ring
  unfold arange
  rw [if_neg (div_ne_zero (mul_pos hg hw).ne' (div_ne_zero hn two_ne_zero)), e]
  exact ⟨_, rfl, by simp, fun k h => by simp⟩

theorem plate_residual_cases (img g : Arr2 ℝ) (pg pct p : ℝ) (hr : 0 < g.nr) (hc : 0 < g.nc) (hg : 0 < pg) (ref : Arr2 ℂ)
    (href : doImft (g.map fun v : ℝ => (v : ℂ)) g.nr g.nc pg ((max g.nr g.nc : ℕ) : ℝ) = .ok ref) :
    (p ≤ 0 → plateResidual img g ref ((max g.nr g.nc : ℕ) : ℝ) pct p = .error .typeError) ∧
    (0 < p → (pct < 0 ∨ 100 < pct) → plateResidual img g ref ((max g.nr g.nc : ℕ) : ℝ) pct p = .error .valueError) := by
  refine ⟨fun hp => ?_, fun hp hpc => ?_⟩
  · unfold plateResidual
    rw [C18_mft_rejects _ _ _ _ _ fun hh => absurd hh.1.lod (not_lt.mpr hp)]
    rfl
  · obtain ⟨ref', h1, h2⟩ := trial_eq g pg p hr hc hg hp
    rw [h1] at href
    obtain rfl := Except.ok.inj href
    obtain ⟨t, h3, -⟩ := h2 p hp
    unfold plateResidual
    rw [h3, res_ok_bind, if_pos hpc]

/-- **C97 (plate-scale search).**  For a positive search width.  A guess that is not positive, images of different shapes or a missing
setting raise the module's own exception (C84); zero trials raise `ZeroDivisionError`; empty images, or a width of one or more, raise
`TypeError` from the transform; and a percentile outside 0..100, three trials or fewer, or an interpolation step that is not positive
raise `ValueError`. -/
theorem C97_platesolv (I : Interp1d) (img guess : Arr2 ℝ) (pg w n pct step : ℝ) (hg : 0 < pg) (hr : img.nr = guess.nr) (hc : img.nc = guess.nc)
    (hw : 0 < w) :
    ((∃ o, platesolv I img guess pg ⟨some w, some n, some pct, some step⟩ = .ok o) ↔
      (0 < img.nr ∧ 0 < img.nc) ∧ w < 1 ∧ 3 < n ∧ (0 ≤ pct ∧ pct ≤ 100) ∧ 0 < step) ∧
    (platesolv I img guess pg ⟨some w, some n, some pct, some step⟩ = .error .zeroDivisionError ↔ n = 0) ∧
    (platesolv I img guess pg ⟨some w, some n, some pct, some step⟩ = .error .typeError ↔
      n ≠ 0 ∧ (¬ (0 < img.nr ∧ 0 < img.nc) ∨ 0 < n ∧ 1 ≤ w)) ∧
    (platesolv I img guess pg ⟨some w, some n, some pct, some step⟩ = .error .valueError ↔
      n ≠ 0 ∧ (0 < img.nr ∧ 0 < img.nc) ∧ (n < 0 ∨ w < 1 ∧ ¬ (3 < n ∧ (0 ≤ pct ∧ pct ≤ 100) ∧ 0 < step))) := by
  have hacc := C84_accepts I img guess pg w n pct step hw
  have hacc' : (∃ o, platesolv I img guess pg ⟨some w, some n, some pct, some step⟩ = .ok o) ↔
      (0 < img.nr ∧ 0 < img.nc) ∧ w < 1 ∧ 3 < n ∧ (0 ≤ pct ∧ pct ≤ 100) ∧ 0 < step := by
    rw [hacc]
    constructor
    · intro h
      exact ⟨by rw [hr, hc]; exact h.pixels, h.widLt, h.trials, ⟨h.pctLo, h.pctHi⟩, h.step⟩
    · rintro ⟨h1, h2, h3, h4, h5⟩
      exact ⟨hg, hr, hc, by rw [← hr, ← hc]; exact h1, hw, h2, h3, h4.1, h4.2, h5⟩
  refine ⟨hacc', ?_⟩
  by_cases h0 : n = 0
  · have : platesolv I img guess pg ⟨some w, some n, some pct, some step⟩ = .error .zeroDivisionError := by
      unfold platesolv
      rw [if_neg (not_le.mpr hg), if_neg (by push Not; exact ⟨hr, hc⟩)]
      dsimp only
      rw [if_pos h0]
    rw [this]
    simp [h0]
  obtain ⟨pix, hpix, hlen, hk⟩ := plate_pix pg w n hg hw h0
  have hrun : ∀ x, (do
        let ref ← doImft (guess.map fun v : ℝ => (v : ℂ)) guess.nr guess.nc pg ((max guess.nr guess.nc : ℕ) : ℝ)
        let resid ← pix.mapM fun p => plateResidual img guess ref ((max guess.nr guess.nc : ℕ) : ℝ) pct p
        match pix.min?, pix.max? with
        | some lo, some hi => do
          let xs ← arange .valueError lo hi step
          if pix.length < 4 then .error .valueError
          else if xs = [] then .error .valueError
          else match resid.mapM id with
            | none => .ok ([], pix, resid)
            | some ys =>
              let f := I.eval pix ys
              let low := ((xs.map f).min?).getD 0
              .ok (xs.filter fun x => f x = low, pix, resid)
        | _, _ => .error .valueError) = x → platesolv I img guess pg ⟨some w, some n, some pct, some step⟩ = x := by
    intro x hx
    unfold platesolv
    rw [if_neg (not_le.mpr hg), if_neg (by push Not; exact ⟨hr, hc⟩)]
    dsimp only
    rw [if_neg h0, hpix, res_ok_bind]
    exact hx
  by_cases hp : 0 < img.nr ∧ 0 < img.nc
  swap
  · have : platesolv I img guess pg ⟨some w, some n, some pct, some step⟩ = .error .typeError := by
      apply hrun
      have hbad : mftChecks guess.nr guess.nc pg ((max guess.nr guess.nc : ℕ) : ℝ) = .error .typeError := by
        unfold mftChecks
        split_ifs <;> first | rfl | omega
      have : doImft (guess.map fun v : ℝ => (v : ℂ)) guess.nr guess.nc pg ((max guess.nr guess.nc : ℕ) : ℝ) = .error .typeError := by
        unfold doImft
        rw [hbad]
        rfl
      rw [this]
      rfl
    rw [this]
    simp [h0, hp]
  obtain ⟨ref, href, -⟩ := trial_eq guess pg pg (by omega) (by omega) hg hg
  have hres := fun p => plate_residual_cases img guess pg pct p (by omega) (by omega) hg ref href
  have key : ∀ {e : PyExc}, platesolv I img guess pg ⟨some w, some n, some pct, some step⟩ = .error e → e = .typeError ∨ e = .valueError →
      ((e = .typeError) ↔ 0 < n ∧ 1 ≤ w) → ((e = .valueError) ↔ (n < 0 ∨ w < 1 ∧ ¬ (3 < n ∧ (0 ≤ pct ∧ pct ≤ 100) ∧ 0 < step))) →
      (platesolv I img guess pg ⟨some w, some n, some pct, some step⟩ = .error .zeroDivisionError ↔ n = 0) ∧
      (platesolv I img guess pg ⟨some w, some n, some pct, some step⟩ = .error .typeError ↔
        n ≠ 0 ∧ (¬ (0 < img.nr ∧ 0 < img.nc) ∨ 0 < n ∧ 1 ≤ w)) ∧
      (platesolv I img guess pg ⟨some w, some n, some pct, some step⟩ = .error .valueError ↔
        n ≠ 0 ∧ (0 < img.nr ∧ 0 < img.nc) ∧ (n < 0 ∨ w < 1 ∧ ¬ (3 < n ∧ (0 ≤ pct ∧ pct ≤ 100) ∧ 0 < step))) := by
    intro e he hcase ht hv
    rw [he]
    refine ⟨?_, ?_, ?_⟩
    · constructor
      · intro h
        have := Except.error.inj h
        rcases hcase with rfl | rfl <;> cases this
      · exact fun h => absurd h h0
    · rw [Except.error.injEq, ht]
      exact ⟨fun h => ⟨h0, Or.inr h⟩, fun h => h.2.elim (fun hh => absurd hp hh) id⟩
    · rw [Except.error.injEq, hv]
      exact ⟨fun h => ⟨h0, hp, h⟩, fun h => h.2.2⟩
  rcases lt_or_gt_of_ne h0 with hn | hn
  · -- no trial at all
    have hnil : pix = [] := by
      rw [← List.length_eq_zero_iff, hlen, Int.toNat_eq_zero, Int.ceil_le]
      push_cast
      exact hn.le
    refine key (e := .valueError) (hrun _ ?_) (Or.inr rfl) ?_ ?_
    · rw [href, res_ok_bind, hnil]
      rfl
    · simp [not_lt.mpr hn.le]
    · simp [hn]
  have hpos : 0 < pix.length := by
    rw [hlen, Int.lt_toNat, Int.lt_ceil]
    exact_mod_cast hn
  have hcons : ∃ p ps, pix = p :: ps := List.exists_cons_of_length_pos hpos
  obtain ⟨p, ps, hpp⟩ := hcons
  have hfirst : p = pg * (1 - w) := by
    have := hk 0 hpos
    simp only [hpp, List.getElem_cons_zero] at this
    rw [this]
    push_cast
    ring
  by_cases hw1 : 1 ≤ w
  · refine key (e := .typeError) (hrun _ ?_) (Or.inl rfl) (by simp [hn, hw1]) (by simp [hn.le, hw1])
    rw [href, res_ok_bind, hpp, List.mapM_cons, (hres p).1 (by rw [hfirst]; exact mul_nonpos_of_nonneg_of_nonpos hg.le (by linarith))]
    rfl
  push Not at hw1
  have hp0 : 0 < p := by rw [hfirst]; exact mul_pos hg (by linarith)
  by_cases hall : 3 < n ∧ (0 ≤ pct ∧ pct ≤ 100) ∧ 0 < step
  · obtain ⟨o, ho⟩ := hacc'.mpr ⟨hp, hw1, hall⟩
    rw [ho]
    refine ⟨by simp [h0], ?_, ?_⟩
    · simp [hp, not_le.mpr hw1]
    · simp only [reduceCtorEq, false_iff]
      rintro ⟨-, -, h | h⟩
      · linarith
      · exact h.2 hall
  · refine key (e := .valueError) (hrun _ ?_) (Or.inr rfl) (by simp [not_le.mpr hw1]) (by simp only [true_iff]; exact Or.inr ⟨hw1, hall⟩)
    rw [href, res_ok_bind]
    by_cases hpc : pct < 0 ∨ 100 < pct
    · rw [hpp, List.mapM_cons, (hres p).2 hp0 hpc]
      rfl
    have hPA : ∀ q, 0 < q → ∃ r, plateResidual img guess ref ((max guess.nr guess.nc : ℕ) : ℝ) pct q = .ok r := by
      intro q hq
      push Not at hpc
      obtain ⟨r, hr', -⟩ := residual_eq img guess pg (1 / 2) 4 pct 1 q
        ⟨hg, hr, hc, ⟨by omega, by omega⟩, by norm_num, by norm_num, by norm_num, hpc.1, hpc.2, one_pos⟩ hq ref href
      exact ⟨r, hr'⟩
    have hposAll : ∀ q ∈ pix, 0 < q := by
      intro q hq
      obtain ⟨k, hk1, rfl⟩ := List.getElem_of_mem hq
      rw [hk k hk1]
      have h1 : 0 < pg * (1 - w) := mul_pos hg (by linarith)
      have h2 : 0 ≤ (k : ℝ) * (pg * w / (n / 2)) := by positivity
      linarith
    have hmap : ∀ l : List ℝ, (∀ q ∈ l, 0 < q) → ∃ o, l.mapM (fun q => plateResidual img guess ref ((max guess.nr guess.nc : ℕ) : ℝ) pct q) = .ok o := by
      intro l
      induction l with
      | nil => exact fun _ => ⟨[], rfl⟩
      | cons a l ih =>
        intro hl
        obtain ⟨r, hr'⟩ := hPA a (hl a (by simp))
        obtain ⟨o, ho⟩ := ih fun q hq => hl q (by simp [hq])
        exact ⟨r :: o, by rw [List.mapM_cons, hr', res_ok_bind, ho]; rfl⟩
    obtain ⟨o, ho⟩ := hmap pix hposAll
    rw [ho, res_ok_bind]
    obtain ⟨lo, hlo⟩ : ∃ lo, pix.min? = some lo := by
      cases hh : pix.min? with
      | none => rw [List.min?_eq_none_iff, hpp] at hh; cases hh
      | some v => exact ⟨v, rfl⟩
    obtain ⟨hi, hhi⟩ : ∃ hi, pix.max? = some hi := by
      cases hh : pix.max? with
      | none => rw [List.max?_eq_none_iff, hpp] at hh; cases hh
      | some v => exact ⟨v, rfl⟩
    rw [hlo, hhi]
    dsimp only
    unfold arange
    by_cases hs : step = 0
    · rw [if_pos hs]; rfl
    rw [if_neg hs, res_ok_bind]
    by_cases h4 : pix.length < 4
    · rw [if_pos h4]
    rw [if_neg h4]
    have h3n : 3 < n := by
      rw [hlen] at h4
      have : 3 < ⌈n⌉.toNat := by omega
      rw [Int.lt_toNat, Int.lt_ceil] at this
      exact_mod_cast this
    have hlohi : lo ≤ hi := by
      obtain ⟨hl, -⟩ := List.min?_eq_some_iff.mp hlo
      exact (List.max?_eq_some_iff.mp hhi).2 lo hl
    rw [if_pos]
    rw [List.map_eq_nil_iff, List.range_eq_nil, Int.toNat_eq_zero, Int.ceil_le]
    push_cast
    push Not at hpc
    have : ¬ 0 < step := fun h => hall ⟨h3n, ⟨hpc.1, hpc.2⟩, h⟩
    exact div_nonpos_of_nonneg_of_nonpos (sub_nonneg.mpr hlohi) (not_lt.mp this)

/-- The default settings (20 trials over ±10 %) on a 30 by 30 image are accepted; −1 trials is `ValueError`, not an empty answer; and a
search width of one reaches a plate scale of zero, `TypeError`. -/
example (I : Interp1d) (a b : Arr2 ℝ) (ha : a.nr = 30 ∧ a.nc = 30) (hb : b.nr = 30 ∧ b.nc = 30) :
    (∃ o, platesolv I a b 2 ⟨some (1 / 10), some 20, some 99, some (1 / 1000)⟩ = .ok o) ∧
    platesolv I a b 2 ⟨some (1 / 10), some (-1), some 99, some (1 / 1000)⟩ = .error .valueError ∧
    platesolv I a b 2 ⟨some 1, some 20, some 99, some (1 / 1000)⟩ = .error .typeError := by
  have h := fun w n hw => C97_platesolv I a b 2 w n 99 (1 / 1000) (by norm_num) (by rw [ha.1, hb.1]) (by rw [ha.2, hb.2]) hw
  exact ⟨(h (1 / 10) 20 (by norm_num)).1.mpr (by norm_num [ha.1, ha.2]), (h (1 / 10) (-1) (by norm_num)).2.2.2.mpr (by norm_num [ha.1, ha.2]),
    (h 1 20 (by norm_num)).2.2.1.mpr (by norm_num)⟩

end Coralign.Props
