import Verif.Model.Lateral
import Verif.Spec.Lateral
import Verif.Lemmas.Fft
import Verif.Lemmas.PadCrop
import Verif.Props.GridSearch
import Verif.Props.PadCrop
import Verif.Props.Pupil
import Verif.Props.FitSurf

/-!
# C64: the lateral offset search
-/

namespace Coralign.Props

open Coralign Coralign.Spec

/-! ### The cost -/

theorem sum_spec_window {M : Type} [AddCommMonoid M] (n : ℕ) (f : ℤ → M) : ∑ i : Fin n, f ((i : ℕ) - (n : ℤ) / 2) = ∑ p ∈ window n, f p := by
  refine Finset.sum_bij (fun (i : Fin n) _ => ((i : ℕ) : ℤ) - (n : ℤ) / 2) ?_ ?_ ?_ ?_
  · intro i _
    unfold window
    rw [Finset.mem_Ico]
    have := i.isLt
    constructor <;> omega
  · intro i _ j _ h
    exact Fin.ext (by omega)
  · intro p hp
    unfold window at hp
    rw [Finset.mem_Ico] at hp
    exact ⟨⟨(p + (n : ℤ) / 2).toNat, by omega⟩, Finset.mem_univ _, by simp only; omega⟩
  · intro i _
    rfl

theorem mem_window (n : ℕ) (p : ℤ) : p ∈ window n ↔ 0 ≤ (n : ℤ) / 2 + p ∧ (n : ℤ) / 2 + p < n := by
  unfold window
  rw [Finset.mem_Ico]
  constructor <;> intro h <;> constructor <;> omega

/-- The transform of an array given by its centred pixels. -/
theorem doFft_centered (n : ℕ) (f : ℤ → ℤ → ℝ) (u v : ℤ) (hu : u ∈ window n) (hv : v ∈ window n) :
    ((doFft (Arr2.toC ⟨n, n, fun i j => f ((i : ℕ) - (n : ℤ) / 2) ((j : ℕ) - (n : ℤ) / 2)⟩)).map fun z : ℂ => z / ((n : ℤ) : ℂ)).centered u v =
      some (fieldAt n f u v) := by
  rw [mem_window] at hu hv
  unfold Arr2.centered
  rw [Arr2.px_map, doFft_eq]
  have e := Arr2.px_of_inB (⟨n, n, fmat n * Matrix.of (fun (i j : Fin n) => ((f ((i : ℕ) - (n : ℤ) / 2) ((j : ℕ) - (n : ℤ) / 2) : ℝ) : ℂ)) * fmat n⟩ : Arr2 ℂ)
    (i := (n : ℤ) / 2 + u) (j := (n : ℤ) / 2 + v) ⟨hu, hv⟩
  refine (congrArg (Option.map fun z : ℂ => z / ((n : ℤ) : ℂ)) e).trans ?_
  rw [Option.map_some]
  congr 1
  unfold fieldAt
  rw [Int.cast_natCast]
  congr 1
  refine Eq.trans (mul3_apply _ _ _ _ _) ?_
  rw [← sum_spec_window n]
  refine Finset.sum_congr rfl fun i _ => ?_
  rw [← sum_spec_window n]
  refine Finset.sum_congr rfl fun j _ => ?_
  unfold fmat ctr
  rw [Matrix.of_apply, mul_comm (cis _), mul_assoc, ← cis_add]
  congr 1
  unfold cis
  congr 1
  have e1 : (((((n : ℤ) / 2 + u).toNat : ℕ) : ℝ)) - ((n / 2 : ℕ) : ℝ) = u := by
    have : ((((n : ℤ) / 2 + u).toNat : ℕ) : ℤ) - ((n / 2 : ℕ) : ℤ) = u := by omega
    exact_mod_cast this
  have e2 : (((((n : ℤ) / 2 + v).toNat : ℕ) : ℝ)) - ((n / 2 : ℕ) : ℝ) = v := by
    have : ((((n : ℤ) / 2 + v).toNat : ℕ) : ℤ) - ((n / 2 : ℕ) : ℤ) = v := by omega
    exact_mod_cast this
  have e3 : ∀ k : Fin n, (((k : ℕ) : ℝ)) - ((n / 2 : ℕ) : ℝ) = ((((k : ℕ) : ℤ) - (n : ℤ) / 2 : ℤ) : ℝ) := by
    intro k
    have : ((k : ℕ) : ℤ) - (n : ℤ) / 2 = ((k : ℕ) : ℤ) - ((n / 2 : ℕ) : ℤ) := by omega
    rw [this]
    push_cast
    rfl
  simp only
  rw [e1, e2, e3 i, e3 j]
  push_cast
  ring

theorem embed_zext {α : Type} [Zero α] (a : Arr2 α) (c : ℕ) (i j : Fin c) :
    (embed a c c 0).zext (i : ℕ) (j : ℕ) = (a.centered ((i : ℕ) - (c : ℤ) / 2) ((j : ℕ) - (c : ℤ) / 2)).getD 0 := by
  have := embed_centered a c c (0 : α) (k := (i : ℕ) - (c : ℤ) / 2) (l := (j : ℕ) - (c : ℤ) / 2) (by
    unfold Reaches
    have := i.isLt
    have := j.isLt
    omega)
  unfold Arr2.centered at this
  rw [embed_nr, embed_nc, show (c : ℤ) / 2 + ((i : ℕ) - (c : ℤ) / 2) = ((i : ℕ) : ℤ) by omega,
    show (c : ℤ) / 2 + ((j : ℕ) - (c : ℤ) / 2) = ((j : ℕ) : ℤ) by omega] at this
  unfold Arr2.zext
  rw [this]
  rfl

theorem xis_centered (n : ℕ) (u v : ℤ) (hu : u ∈ window n) (hv : v ∈ window n) :
    ((xisArr n).centered u v).getD 0 = ((v : ℝ) - halfSample n) / n ∧ ((etasArr n).centered u v).getD 0 = ((u : ℝ) - halfSample n) / n := by
  rw [mem_window] at hu hv
  have half : ∀ w : ℤ, 0 ≤ (n : ℤ) / 2 + w → -(n : ℝ) / 2 + ((((n : ℤ) / 2 + w).toNat : ℕ) : ℝ) = (w : ℝ) - halfSample n := by
    intro w hw
    have e : ((((n : ℤ) / 2 + w).toNat : ℕ) : ℝ) = ((n / 2 : ℕ) : ℝ) + w := by
      have : ((((n : ℤ) / 2 + w).toNat : ℕ) : ℤ) = ((n / 2 : ℕ) : ℤ) + w := by omega
      have h := congrArg (fun z : ℤ => (z : ℝ)) this
      simp only [Int.cast_add, Int.cast_natCast] at h
      exact h
    rw [e]
    unfold halfSample
    rcases Nat.even_or_odd' n with ⟨m, rfl | rfl⟩
    · rw [if_pos (by omega), show 2 * m / 2 = m by omega]
      push_cast
      ring
    · rw [if_neg (by omega), show (2 * m + 1) / 2 = m by omega]
      push_cast
      ring
  constructor
  · have e := Arr2.px_of_inB (xisArr n) (i := (n : ℤ) / 2 + u) (j := (n : ℤ) / 2 + v) ⟨hu, hv⟩
    have : (xisArr n).centered u v = _ := e
    rw [this, Option.getD_some, ← half v hv.1]
    rfl
  · have e := Arr2.px_of_inB (etasArr n) (i := (n : ℤ) / 2 + u) (j := (n : ℤ) / 2 + v) ⟨hu, hv⟩
    have : (etasArr n).centered u v = _ := e
    rw [this, Option.getD_some, ← half u hu.1]
    rfl

/-- The cost of the search is the mismatch. -/
theorem lateralCost_eq (n c : ℕ) (f g : ℤ → ℤ → ℝ) (dx dy : ℝ) :
    lateralCost c
      (embed ((doFft (Arr2.toC ⟨n, n, fun i j => f ((i : ℕ) - (n : ℤ) / 2) ((j : ℕ) - (n : ℤ) / 2)⟩)).map fun z : ℂ => z / ((n : ℤ) : ℂ)) c c 0)
      (embed ((doFft (Arr2.toC ⟨n, n, fun i j => g ((i : ℕ) - (n : ℤ) / 2) ((j : ℕ) - (n : ℤ) / 2)⟩)).map fun z : ℂ => z / ((n : ℤ) : ℂ)) c c 0)
      (embed (xisArr n) c c 0) (embed (etasArr n) c c 0) dx dy = mismatch n c (halfSample n) f g dx dy := by
  have term : ∀ u v : ℤ,
      ‖(((doFft (Arr2.toC ⟨n, n, fun i j => f ((i : ℕ) - (n : ℤ) / 2) ((j : ℕ) - (n : ℤ) / 2)⟩)).map fun z : ℂ => z / ((n : ℤ) : ℂ)).centered u v).getD 0 *
          cis (dx * ((xisArr n).centered u v).getD 0 + dy * ((etasArr n).centered u v).getD 0) -
        (((doFft (Arr2.toC ⟨n, n, fun i j => g ((i : ℕ) - (n : ℤ) / 2) ((j : ℕ) - (n : ℤ) / 2)⟩)).map fun z : ℂ => z / ((n : ℤ) : ℂ)).centered u v).getD 0‖ ^ 2 =
      if u ∈ window n ∧ v ∈ window n then
        ‖fieldAt n f u v * Complex.exp (2 * Real.pi * Complex.I * ((dx * (v - halfSample n) + dy * (u - halfSample n)) / n)) - fieldAt n g u v‖ ^ 2
      else 0 := by
    intro u v
    by_cases h : u ∈ window n ∧ v ∈ window n
    · rw [if_pos h, doFft_centered n f u v h.1 h.2, doFft_centered n g u v h.1 h.2, Option.getD_some, Option.getD_some,
        (xis_centered n u v h.1 h.2).1, (xis_centered n u v h.1 h.2).2]
      congr 4
      unfold cis
      congr 1
      push_cast
      ring
    · rw [if_neg h]
      have hr : ¬ Reaches n n u v := by
        rw [mem_window, mem_window] at h
        unfold Reaches
        exact h
      have z : ∀ f : ℤ → ℤ → ℝ, ((doFft (Arr2.toC ⟨n, n, fun i j => f ((i : ℕ) - (n : ℤ) / 2) ((j : ℕ) - (n : ℤ) / 2)⟩)).map
          fun z : ℂ => z / ((n : ℤ) : ℂ)).centered u v = none := fun f => centered_eq_none _ (by exact hr)
      rw [z f, z g, Option.getD_none]
      simp
  unfold lateralCost
  simp only [embed_zext, term]
  rw [sum_spec_window c (fun u : ℤ => ∑ j : Fin c, if u ∈ window n ∧ ((j : ℕ) - (c : ℤ) / 2) ∈ window n then
    ‖fieldAt n f u ((j : ℕ) - (c : ℤ) / 2) * Complex.exp (2 * Real.pi * Complex.I * ((dx * ((((j : ℕ) - (c : ℤ) / 2 : ℤ)) - halfSample n) +
      dy * (u - halfSample n)) / n)) - fieldAt n g u ((j : ℕ) - (c : ℤ) / 2)‖ ^ 2 else 0)]
  unfold mismatch
  rw [← Finset.filter_mem_eq_inter, Finset.sum_filter]
  refine Finset.sum_congr rfl fun u _ => ?_
  rw [sum_spec_window c (fun v : ℤ => if u ∈ window n ∧ v ∈ window n then
    ‖fieldAt n f u v * Complex.exp (2 * Real.pi * Complex.I * ((dx * (v - halfSample n) +
      dy * (u - halfSample n)) / n)) - fieldAt n g u v‖ ^ 2 else 0)]
  by_cases hu : u ∈ window n
  · rw [if_pos hu, Finset.sum_filter]
    refine Finset.sum_congr rfl fun v _ => ?_
    simp only [hu, true_and]
  · rw [if_neg hu]
    refine Finset.sum_eq_zero fun v _ => ?_
    rw [if_neg (fun h => hu h.1)]

/-! ### The loop -/

theorem search_trials (n : ℕ) (hn : 3 ≤ n) (d c : ℝ) :
    (linspaceList (-((n : ℝ) - 1) / 2) (((n : ℝ) - 1) / 2) n).map (fun v : ℝ => v * d + c) = trials n d c := by
  have h1 : (n : ℝ) - 1 ≠ 0 := by
    have : (3 : ℝ) ≤ n := by exact_mod_cast hn
    linarith
  unfold linspaceList linspace trials
  rw [List.map_map]
  refine List.map_congr_left fun k _ => ?_
  simp only [Function.comp]
  field_simp
  ring

theorem lateralLoop_fit (S : Solver) (F : ℝ → ℝ → ℝ) (n nIter : ℕ) (hn : 3 ≤ n) (left iter : ℕ) (hi : ¬ (iter = 0 ∧ nIter > 1)) (d : ℝ)
    (hd : d ≠ 0) (est : ℝ × ℝ) (x0 y0 : ℝ)
    (h : Paraboloid F (trials n (if iter > 1 then d / 2 else d) est.1) (trials n (if iter > 1 then d / 2 else d) est.2) x0 y0) :
    lateralLoop S F n nIter (left + 1) iter d est = lateralLoop S F n nIter left (iter + 1) (if iter > 1 then d / 2 else d) (x0, y0) := by
  have hd' : (if iter > 1 then d / 2 else d) ≠ 0 := by
    split_ifs
    · exact div_ne_zero hd two_ne_zero
    · exact hd
  generalize hD : (if iter > 1 then d / 2 else d) = D at *
  conv_lhs => unfold lateralLoop
  simp only [hD, search_trials n hn, if_neg hi]
  rw [costGrid_ok _ _ _ F (fun x _ y _ => rfl), res_ok_bind,
    gridFit_paraboloid S _ _ F x0 y0 (trials_three n hn _ _ hd') (trials_three n hn _ _ hd') h, res_ok_bind]

theorem lateralLoop_stays (S : Solver) (F : ℝ → ℝ → ℝ) (n nIter : ℕ) (hn : 3 ≤ n) (x0 y0 : ℝ) (left iter : ℕ) (hi : 2 ≤ iter) (d : ℝ)
    (hd : d ≠ 0) (h : ∀ k, k < left → Paraboloid F (trials n (d / 2 ^ (k + 1)) x0) (trials n (d / 2 ^ (k + 1)) y0) x0 y0) :
    lateralLoop S F n nIter left iter d (x0, y0) = .ok (x0, y0) := by
  induction left generalizing iter d with
  | zero => rfl
  | succ left ih =>
    have h0 := h 0 (by omega)
    rw [zero_add, pow_one] at h0
    rw [lateralLoop_fit S F n nIter hn left iter (by omega) d hd (x0, y0) x0 y0 (by rw [if_pos (by omega)]; exact h0), if_pos (by omega)]
    refine ih (iter + 1) (by omega) (d / 2) (div_ne_zero hd two_ne_zero) fun k hk => ?_
    have := h (k + 1) (by omega)
    rw [show d / 2 / 2 ^ (k + 1) = d / 2 ^ (k + 1 + 1) by rw [pow_succ, pow_succ, pow_succ]; field_simp]
    exact this

/-- The `n x n` trial displacements around `(cx, cy)`, `step` pixels apart, which the search may try: around zero; in a search of several
iterations around any of those; and around the minimiser `(x0, y0)` with the step halved once, twice, ... -/
def Tried (n : ℕ) (d : ℝ) (nIter : ℤ) (x0 y0 cx cy step : ℝ) : Prop :=
  (cx = 0 ∧ cy = 0 ∧ step = d) ∨ (1 < nIter ∧ cx ∈ trials n d 0 ∧ cy ∈ trials n d 0 ∧ step = d) ∨
    ∃ k : ℕ, 1 ≤ k ∧ (k : ℤ) + 1 < nIter ∧ cx = x0 ∧ cy = y0 ∧ step = d / 2 ^ k

theorem lateralLoop_exact (S : Solver) (F : ℝ → ℝ → ℝ) (n nIter : ℕ) (hn : 3 ≤ n) (hI : 0 < nIter) (x0 y0 d : ℝ) (hd : d ≠ 0)
    (h : ∀ cx cy step, Tried n d nIter x0 y0 cx cy step → Paraboloid F (trials n step cx) (trials n step cy) x0 y0) :
    lateralLoop S F n nIter nIter 0 d (0, 0) = .ok (x0, y0) := by
  by_cases h1 : nIter = 1
  · subst h1
    rw [lateralLoop_fit S F n 1 hn 0 0 (by omega) d hd (0, 0) x0 y0 (by rw [if_neg (by omega)]; exact h _ _ _ (Or.inl ⟨rfl, rfl, rfl⟩))]
    rfl
  · obtain ⟨m, rfl⟩ : ∃ m, nIter = m + 2 := ⟨nIter - 2, by omega⟩
    conv_lhs => unfold lateralLoop
    have hc : (True ∧ m + 2 > 1) := ⟨trivial, by omega⟩
    simp only [if_neg (show ¬ (0 > 1) by omega), search_trials n hn]
    rw [costGrid_ok _ _ _ F (fun x _ y _ => rfl), res_ok_bind, if_pos hc, res_ok_bind]
    obtain ⟨g1, g2, -⟩ := gridArgmin_spec (trials n d 0) (trials n d 0) F (trials_ne_nil n (by omega) d 0) (trials_ne_nil n (by omega) d 0)
    generalize gridArgmin (trials n d 0) (trials n d 0) _ = b at g1 g2
    rw [lateralLoop_fit S F n (m + 2) hn m 1 (by omega) d hd b x0 y0 (by
      rw [if_neg (by omega)]
      exact h _ _ _ (Or.inr (Or.inl ⟨by push_cast; omega, g1, g2, rfl⟩))), if_neg (by omega)]
    refine lateralLoop_stays S F n (m + 2) hn x0 y0 m 2 le_rfl d hd fun k hk => ?_
    exact h _ _ _ (Or.inr (Or.inr ⟨k + 1, by omega, by push_cast; omega, rfl, rfl, rfl⟩))

/-! ### The function -/

/-- The arguments `compute_lateral_offsets` accepts. -/
structure LateralArgs (diam : ℝ) (nSteps : ℤ) (d : ℝ) (nPad nFocus nIter : ℤ) : Prop where
  diam : 0 < diam
  steps : 0 < nSteps
  pixel : 0 < d
  pad : 0 < nPad
  focus : 0 < nFocus
  iter : 0 < nIter

theorem embed_at0 (a : Arr2 ℝ) (n : ℕ) :
    embed a n n 0 = ⟨n, n, fun i j => at0 a ((i : ℕ) - (n : ℤ) / 2) ((j : ℕ) - (n : ℤ) / 2)⟩ := by
  unfold embed Arr2.ofFn at0 Arr2.centered
  congr 1
  funext i j
  beta_reduce
  rw [add_comm (((i : ℕ) : ℤ) - (n : ℤ) / 2), add_comm (((j : ℕ) : ℤ) - (n : ℤ) / 2)]

theorem recentre_at0 (a : Arr2 ℝ) (n : ℕ) (hn : 0 < n) (yC xC : ℤ) :
    offcenterCrop a 0 (n : ℤ) ((((a.nr / 2 : ℕ) : ℤ) + yC : ℤ) : ℝ) ((((a.nc / 2 : ℕ) : ℤ) + xC : ℤ) : ℝ) =
      .ok ⟨n, n, fun i j => at0 a (((i : ℕ) - (n : ℤ) / 2) + yC) (((j : ℕ) - (n : ℤ) / 2) + xC)⟩ := by
  obtain ⟨o, yc, xc, ho, hy, hx, -, -, hnr, hnc, hpx⟩ := C04_offcenter_crop_window a (0 : ℝ) (n : ℤ)
    ((((a.nr / 2 : ℕ) : ℤ) + yC : ℤ) : ℝ) ((((a.nc / 2 : ℕ) : ℤ) + xC : ℤ) : ℝ) (by omega)
  rw [ho]
  congr 1
  have key : ∀ z w : ℤ, |((z : ℤ) : ℝ) - w| ≤ 1 / 2 → w = z := by
    intro z w h
    have h2 : |((z - w : ℤ) : ℝ)| < 1 := by push_cast; linarith
    have h3 : |z - w| < 1 := by exact_mod_cast h2
    have := abs_lt.mp h3
    omega
  rw [key _ _ hy, key _ _ hx] at hpx
  refine Arr2.ext_px (by simpa using hnr) (by simpa using hnc) ?_
  intro i j h1 h2 h3 h4
  rw [hpx i j h1 (by omega) h3 (by omega)]
  have e := Arr2.px_of_inB (⟨n, n, fun i j => at0 a (((i : ℕ) - (n : ℤ) / 2) + yC) (((j : ℕ) - (n : ℤ) / 2) + xC)⟩ : Arr2 ℝ) (i := i) (j := j)
    (by simp only; omega)
  rw [e]
  congr 1
  simp only
  unfold at0 Arr2.centered
  rw [show (a.nr : ℤ) / 2 + (((i.toNat : ℕ) : ℤ) - (n : ℤ) / 2 + yC) = ((a.nr / 2 : ℕ) : ℤ) + yC - (n : ℤ) / 2 + i by omega,
    show (a.nc : ℤ) / 2 + (((j.toNat : ℕ) : ℤ) - (n : ℤ) / 2 + xC) = ((a.nc / 2 : ℕ) : ℤ) + xC - (n : ℤ) / 2 + j by omega]
  cases a.px (((a.nr / 2 : ℕ) : ℤ) + yC - (n : ℤ) / 2 + i) (((a.nc / 2 : ℕ) : ℤ) + xC - (n : ℤ) / 2 + j) <;> rfl

/-- The search runs on the mismatch between the measured pupil, recentred on the rounded coarse offset, and the reference. -/
theorem lateral_eq (S : Solver) (meas ref : Arr2 ℝ) (diam : ℝ) (nSteps : ℤ) (d : ℝ) (nPad nFocus nIter : ℤ) (x y : ℝ)
    (h : LateralArgs diam nSteps d nPad nFocus nIter) :
    computeLateralOffsets S meas ref diam nSteps d nPad nFocus nIter x y = (do
      let sol ← lateralLoop S (mismatch nPad.toNat nFocus.toNat (halfSample nPad.toNat)
        (fun p q => at0 meas (p + npRound y) (q + npRound x)) (at0 ref)) nSteps.toNat nIter.toNat nIter.toNat 0 d (0, 0)
      .ok (npRound y + sol.2, npRound x + sol.1) : Res (ℝ × ℝ)) := by
  obtain ⟨h1, h2, h3, h4, h5, h6⟩ := h
  obtain ⟨n, rfl⟩ := Int.eq_ofNat_of_zero_le h4.le
  obtain ⟨c, rfl⟩ := Int.eq_ofNat_of_zero_le h5.le
  unfold computeLateralOffsets focusField
  rw [if_neg (by rintro (h | h | h | h | h | h) <;> first | omega | linarith)]
  simp only
  rw [padCrop_eq ref _ _ _ h4 h4, res_ok_bind, padCrop_eq _ _ _ _ h5 h5, res_ok_bind, recentre_at0 meas n (by omega), res_ok_bind,
    padCrop_eq _ _ _ _ h5 h5, res_ok_bind, padCrop_eq _ _ _ _ h5 h5, res_ok_bind, padCrop_eq _ _ _ _ h5 h5, res_ok_bind]
  simp only [Int.toNat_natCast]
  rw [embed_at0 ref n]
  have hF : lateralCost c
      (embed ((doFft (Arr2.toC ⟨n, n, fun i j => at0 meas (((i : ℕ) - (n : ℤ) / 2) + npRound y) (((j : ℕ) - (n : ℤ) / 2) + npRound x)⟩)).map
        fun z : ℂ => z / ((n : ℤ) : ℂ)) c c 0)
      (embed ((doFft (Arr2.toC ⟨n, n, fun i j => at0 ref ((i : ℕ) - (n : ℤ) / 2) ((j : ℕ) - (n : ℤ) / 2)⟩)).map fun z : ℂ => z / ((n : ℤ) : ℂ)) c c 0)
      (embed (xisArr n) c c 0) (embed (etasArr n) c c 0) = mismatch n c (halfSample n)
        (fun p q => at0 meas (p + npRound y) (q + npRound x)) (at0 ref) := by
    funext dx dy
    exact lateralCost_eq n c (fun p q => at0 meas (p + npRound y) (q + npRound x)) (at0 ref) dx dy
  rw [hF]

/-- **C64.** If the mismatch between the pupils is a paraboloid of the trial displacement at the displacements tried, centred on
`(x0, y0)`, then `compute_lateral_offsets` returns the rounded coarse offsets plus `(x0, y0)`, for every number of iterations. -/
theorem C64_quadratic (S : Solver) (meas ref : Arr2 ℝ) (diam : ℝ) (nSteps : ℤ) (d : ℝ) (nPad nFocus nIter : ℤ) (xC yC : ℤ)
    (ha : LateralArgs diam nSteps d nPad nFocus nIter) (hn : 3 ≤ nSteps) (x0 y0 : ℝ)
    (h : ∀ cx cy step, Tried nSteps.toNat d nIter x0 y0 cx cy step →
      Paraboloid (mismatch nPad.toNat nFocus.toNat (halfSample nPad.toNat) (fun p q => at0 meas (p + yC) (q + xC)) (at0 ref))
        (trials nSteps.toNat step cx) (trials nSteps.toNat step cy) x0 y0) :
    computeLateralOffsets S meas ref diam nSteps d nPad nFocus nIter xC yC = .ok (yC + y0, xC + x0) := by
  rw [lateral_eq S meas ref diam nSteps d nPad nFocus nIter xC yC ha, npRound_intCast, npRound_intCast]
  have := ha.iter
  rw [lateralLoop_exact S _ nSteps.toNat nIter.toNat (by omega) (by omega) x0 y0 d ha.pixel.ne' (by
    intro cx cy step ht
    rw [Int.toNat_of_nonneg ha.iter.le] at ht
    exact h cx cy step ht), res_ok_bind]

/-- **C64.** Arguments which are not positive raise `TypeError`. -/
theorem C64_rejects (S : Solver) (meas ref : Arr2 ℝ) (diam : ℝ) (nSteps : ℤ) (d : ℝ) (nPad nFocus nIter : ℤ) (x y : ℝ)
    (ha : ¬ LateralArgs diam nSteps d nPad nFocus nIter) :
    computeLateralOffsets S meas ref diam nSteps d nPad nFocus nIter x y = .error .typeError := by
  unfold computeLateralOffsets
  rw [if_pos]
  by_contra hc
  push Not at hc
  exact ha ⟨hc.1, hc.2.1, hc.2.2.1, hc.2.2.2.1, hc.2.2.2.2.1, hc.2.2.2.2.2⟩

/-! ### Displaced pupils -/

/-- The field of a displaced pupil, as long as the pupil stays inside the window. -/
theorem fieldAt_shift (n : ℕ) (f : ℤ → ℤ → ℝ) (sy sx : ℤ)
    (hf : ∀ p q, f p q ≠ 0 → (p ∈ window n ∧ q ∈ window n) ∧ (p + sy ∈ window n ∧ q + sx ∈ window n)) (u v : ℤ) :
    fieldAt n (fun p q => f (p - sy) (q - sx)) u v =
      fieldAt n f u v * Complex.exp (-2 * Real.pi * Complex.I * ((u * sy + v * sx) / n)) := by
  unfold fieldAt
  rw [div_mul_eq_mul_div]
  congr 1
  rw [Finset.sum_mul, ← Finset.sum_product', Finset.sum_congr rfl fun p _ => Finset.sum_mul _ _ _, ← Finset.sum_product']
  refine Finset.sum_bij_ne_zero (fun z _ _ => (z.1 - sy, z.2 - sx)) ?_ ?_ ?_ ?_
  · rintro ⟨p, q⟩ - hne
    have hz : f (p - sy) (q - sx) ≠ 0 := by
      intro h0
      apply hne
      simp [h0]
    exact Finset.mem_product.mpr (hf _ _ hz).1
  · rintro ⟨p, q⟩ - - ⟨p', q'⟩ - - he
    simp only [Prod.mk.injEq] at he ⊢
    constructor <;> omega
  · rintro ⟨p, q⟩ - hne
    have hz : f p q ≠ 0 := by
      intro h0
      apply hne
      simp [h0]
    refine ⟨(p + sy, q + sx), Finset.mem_product.mpr (hf _ _ hz).2, ?_, by simp⟩
    simp only [add_sub_cancel_right]
    exact mul_ne_zero (by exact_mod_cast hz) (Complex.exp_ne_zero _)
  · rintro ⟨p, q⟩ - -
    simp only
    rw [mul_assoc ((f (p - sy) (q - sx) : ℝ) : ℂ), ← Complex.exp_add]
    congr 2
    push_cast
    ring

theorem norm_exp_turn (t : ℝ) : ‖Complex.exp (2 * Real.pi * Complex.I * t)‖ = 1 := norm_cis t

/-- **C64.** If the measured pupil is the reference displaced by `(xC + sx, yC + sy)` and fits in the window, the mismatch vanishes at
the trial displacement `(sx, sy)` when `nPadFFT` is even: the true displacement is a global minimum of the cost. -/
theorem C64_true_displacement (meas ref : Arr2 ℝ) (n c : ℕ) (hn : n % 2 = 0) (xC yC sx sy : ℤ)
    (hm : ∀ p q, at0 meas p q = at0 ref (p - (yC + sy)) (q - (xC + sx)))
    (hf : ∀ p q, at0 ref p q ≠ 0 → (p ∈ window n ∧ q ∈ window n) ∧ (p + sy ∈ window n ∧ q + sx ∈ window n)) :
    mismatch n c (halfSample n) (fun p q => at0 meas (p + yC) (q + xC)) (at0 ref) sx sy = 0 ∧
    ∀ dx dy, 0 ≤ mismatch n c (halfSample n) (fun p q => at0 meas (p + yC) (q + xC)) (at0 ref) dx dy := by
  constructor
  · have e : (fun p q => at0 meas (p + yC) (q + xC)) = fun p q => at0 ref (p - sy) (q - sx) := by
      funext p q
      rw [hm]
      congr 1 <;> ring
    rw [e]
    unfold mismatch halfSample
    rw [if_pos hn]
    refine Finset.sum_eq_zero fun u _ => Finset.sum_eq_zero fun v _ => ?_
    rw [fieldAt_shift n (at0 ref) sy sx hf, mul_assoc, ← Complex.exp_add]
    rw [show (-2 * Real.pi * Complex.I * (((u : ℂ) * sy + v * sx) / n) +
      2 * Real.pi * Complex.I * ((((sx : ℝ) : ℂ) * (v - ((0 : ℝ) : ℂ)) + ((sy : ℝ) : ℂ) * (u - ((0 : ℝ) : ℂ))) / n) : ℂ) = 0 by push_cast; ring]
    simp
  · intro dx dy
    exact Finset.sum_nonneg fun u _ => Finset.sum_nonneg fun v _ => by positivity

/-- **C64, odd `nPadFFT`.** For odd `nPadFFT` the frequencies are half a sample off, and the mismatch at the true displacement is the
energy of the reference times `|exp(-iπ(sx + sy)/n) - 1|²`: it does not vanish unless `2 n` divides `sx + sy`. -/
theorem C64_odd_bias (meas ref : Arr2 ℝ) (n c : ℕ) (hn : n % 2 = 1) (xC yC sx sy : ℤ)
    (hm : ∀ p q, at0 meas p q = at0 ref (p - (yC + sy)) (q - (xC + sx)))
    (hf : ∀ p q, at0 ref p q ≠ 0 → (p ∈ window n ∧ q ∈ window n) ∧ (p + sy ∈ window n ∧ q + sx ∈ window n)) :
    mismatch n c (halfSample n) (fun p q => at0 meas (p + yC) (q + xC)) (at0 ref) sx sy =
      ‖Complex.exp (-Real.pi * Complex.I * ((sx + sy : ℤ) / n)) - 1‖ ^ 2 *
        ∑ u ∈ window c ∩ window n, ∑ v ∈ window c ∩ window n, ‖fieldAt n (at0 ref) u v‖ ^ 2 := by
  have e : (fun p q => at0 meas (p + yC) (q + xC)) = fun p q => at0 ref (p - sy) (q - sx) := by
    funext p q
    rw [hm]
    congr 1 <;> ring
  rw [e]
  unfold mismatch halfSample
  rw [if_neg (by omega), Finset.mul_sum]
  refine Finset.sum_congr rfl fun u _ => ?_
  rw [Finset.mul_sum]
  refine Finset.sum_congr rfl fun v _ => ?_
  rw [fieldAt_shift n (at0 ref) sy sx hf, mul_assoc, ← Complex.exp_add, ← mul_pow, ← norm_mul]
  congr 2
  rw [show (-2 * Real.pi * Complex.I * (((u : ℂ) * sy + v * sx) / n) +
      2 * Real.pi * Complex.I * ((((sx : ℝ) : ℂ) * (v - ((1 / 2 : ℝ) : ℂ)) + ((sy : ℝ) : ℂ) * (u - ((1 / 2 : ℝ) : ℂ))) / n) : ℂ) =
      -Real.pi * Complex.I * ((sx + sy : ℤ) / n) by push_cast; ring]
  ring

/-! ### A concrete search -/

/-- A cross through the centre of a `4 x 4` array. -/
noncomputable def crossRef : Arr2 ℝ := ⟨4, 4, fun i j => (if (i : ℕ) = 2 then 1 else 0) + (if (j : ℕ) = 2 then 1 else 0)⟩

/-- A `7 x 7` image of a cross displaced by one pixel in x. -/
noncomputable def crossMeas : Arr2 ℝ := ⟨7, 7, fun i j => (if (i : ℕ) = 3 then 1 else 0) + (if (j : ℕ) = 4 then 1 else 0)⟩

theorem crossRef_at0 (p q : ℤ) (hp : p ∈ window 4) (hq : q ∈ window 4) :
    at0 crossRef p q = (if p = 0 then 1 else 0) + (if q = 0 then 1 else 0) := by
  rw [mem_window] at hp hq
  have e := Arr2.px_of_inB crossRef (i := 2 + p) (j := 2 + q) (by show (0 ≤ 2 + p ∧ 2 + p < ((4 : ℕ) : ℤ)) ∧ (0 ≤ 2 + q ∧ 2 + q < ((4 : ℕ) : ℤ)); omega)
  have : crossRef.centered p q = _ := e
  unfold at0
  rw [this, Option.getD_some]
  show (if (2 + p).toNat = 2 then (1 : ℝ) else 0) + (if (2 + q).toNat = 2 then (1 : ℝ) else 0) = _
  simp only [show ((2 + p).toNat = 2) = (p = 0) by apply propext; omega, show ((2 + q).toNat = 2) = (q = 0) by apply propext; omega]

theorem crossMeas_at0 (p q : ℤ) (hp : p ∈ window 4) (hq : q ∈ window 4) :
    at0 crossMeas (p + 0) (q + 1) = (if p = 0 then 1 else 0) + (if q = 0 then 1 else 0) := by
  rw [mem_window] at hp hq
  have e := Arr2.px_of_inB crossMeas (i := 3 + (p + 0)) (j := 3 + (q + 1)) (by
    show (0 ≤ 3 + (p + 0) ∧ 3 + (p + 0) < ((7 : ℕ) : ℤ)) ∧ (0 ≤ 3 + (q + 1) ∧ 3 + (q + 1) < ((7 : ℕ) : ℤ)); omega)
  have : crossMeas.centered (p + 0) (q + 1) = _ := e
  unfold at0
  rw [this, Option.getD_some]
  show (if (3 + (p + 0)).toNat = 3 then (1 : ℝ) else 0) + (if (3 + (q + 1)).toNat = 4 then (1 : ℝ) else 0) = _
  simp only [show ((3 + (p + 0)).toNat = 3) = (p = 0) by apply propext; omega, show ((3 + (q + 1)).toNat = 4) = (q = 0) by apply propext; omega]

theorem quarter_turn : Complex.exp (2 * Real.pi * Complex.I * ((1 : ℂ) / 4)) = Complex.I := by
  rw [show (2 * Real.pi * Complex.I * ((1 : ℂ) / 4)) = ((Real.pi / 2 : ℝ) : ℂ) * Complex.I by push_cast; ring, Complex.exp_mul_I,
    ← Complex.ofReal_cos, ← Complex.ofReal_sin, Real.cos_pi_div_two, Real.sin_pi_div_two]
  simp

theorem turn_int (k : ℤ) : Complex.exp (2 * Real.pi * Complex.I * ((k : ℂ) / 4)) = Complex.I ^ k := by
  have h : (Complex.exp (2 * Real.pi * Complex.I * ((1 : ℂ) / 4))) ^ k = Complex.I ^ k := by rw [quarter_turn]
  rw [← h, ← Complex.exp_int_mul]
  congr 1
  ring

theorem cross_field (f : ℤ → ℤ → ℝ) (hf : ∀ p ∈ window 4, ∀ q ∈ window 4, f p q = (if p = 0 then 1 else 0) + (if q = 0 then 1 else 0))
    (u v : ℤ) (hu : -1 ≤ u ∧ u ≤ 1) (hv : -1 ≤ v ∧ v ≤ 1) : fieldAt 4 f u v = (if u = 0 then 1 else 0) + (if v = 0 then 1 else 0) := by
  have e : ∀ p q : ℤ, Complex.exp (-2 * Real.pi * Complex.I * (((u : ℂ) * p + v * q) / ((4 : ℕ) : ℂ))) = Complex.I ^ (-(u * p)) * Complex.I ^ (-(v * q)) := by
    intro p q
    rw [← zpow_add₀ Complex.I_ne_zero, ← turn_int]
    congr 1
    push_cast
    ring
  unfold fieldAt
  rw [Finset.sum_congr rfl fun p hp => Finset.sum_congr rfl fun q hq => by rw [hf p hp q hq, e p q]]
  rw [← sum_spec_window 4, Fin.sum_univ_four]
  rw [← sum_spec_window 4, ← sum_spec_window 4, ← sum_spec_window 4, ← sum_spec_window 4]
  simp only [Fin.sum_univ_four]
  have hI2 : Complex.I ^ (2 : ℤ) = -1 := by rw [show (2 : ℤ) = ((2 : ℕ) : ℤ) by norm_num, zpow_natCast, Complex.I_sq]
  have hI2' : Complex.I ^ (-2 : ℤ) = -1 := by rw [zpow_neg, hI2]; norm_num
  have hI1' : Complex.I ^ (-1 : ℤ) = -Complex.I := by rw [zpow_neg_one, Complex.inv_I]
  have hII := Complex.I_mul_I
  obtain rfl | rfl | rfl : u = -1 ∨ u = 0 ∨ u = 1 := by omega
  all_goals obtain rfl | rfl | rfl : v = -1 ∨ v = 0 ∨ v = 1 := by omega
  all_goals norm_num [hI2, hI2', hI1', Fin.val_zero, Fin.val_one, Fin.val_two]
  all_goals ring_nf

theorem window_34 : window 3 ∩ window 4 = {-1, 0, 1} := by
  ext p
  rw [Finset.mem_inter, mem_window, mem_window]
  simp only [Finset.mem_insert, Finset.mem_singleton]
  constructor
  · intro h; omega
  · intro h; rcases h with rfl | rfl | rfl <;> norm_num

theorem turn_cost (k : ℤ) (hk : -1 ≤ k ∧ k ≤ 1) : ‖Complex.I ^ k - 1‖ ^ 2 = 2 * (k : ℝ) ^ 2 := by
  have hI1' : Complex.I ^ (-1 : ℤ) = -Complex.I := by rw [zpow_neg_one, Complex.inv_I]
  obtain rfl | rfl | rfl : k = -1 ∨ k = 0 ∨ k = 1 := by omega
  · rw [hI1', ← Complex.normSq_eq_norm_sq, Complex.normSq_apply]; norm_num
  · norm_num
  · rw [zpow_one, ← Complex.normSq_eq_norm_sq, Complex.normSq_apply]; norm_num

/-- The mismatch of the crosses is `4 dx² + 4 dy²` at the nine displacements tried. -/
theorem cross_mismatch (X Y : ℤ) (hX : -1 ≤ X ∧ X ≤ 1) (hY : -1 ≤ Y ∧ Y ≤ 1) :
    mismatch 4 3 (halfSample 4) (fun p q => at0 crossMeas (p + (0 : ℤ)) (q + (1 : ℤ))) (at0 crossRef) X Y = 4 * (X : ℝ) ^ 2 + 4 * (Y : ℝ) ^ 2 := by
  have hs : halfSample 4 = 0 := by unfold halfSample; norm_num
  have fm : ∀ u v : ℤ, (-1 ≤ u ∧ u ≤ 1) → (-1 ≤ v ∧ v ≤ 1) → _ := fun u v hu hv =>
    cross_field (fun p q => at0 crossMeas (p + (0 : ℤ)) (q + (1 : ℤ))) (fun p hp q hq => crossMeas_at0 p q hp hq) u v hu hv
  have fr : ∀ u v : ℤ, (-1 ≤ u ∧ u ≤ 1) → (-1 ≤ v ∧ v ≤ 1) → _ := fun u v hu hv =>
    cross_field (at0 crossRef) (fun p hp q hq => crossRef_at0 p q hp hq) u v hu hv
  have ex : ∀ u v : ℤ, Complex.exp (2 * Real.pi * Complex.I * ((((X : ℝ) : ℂ) * ((v : ℂ) - ((0 : ℝ) : ℂ)) + ((Y : ℝ) : ℂ) * ((u : ℂ) - ((0 : ℝ) : ℂ))) / ((4 : ℕ) : ℂ))) =
      Complex.I ^ (X * v + Y * u) := by
    intro u v
    rw [← turn_int]
    congr 1
    push_cast
    ring
  unfold mismatch
  rw [hs, window_34]
  simp only [ex]
  have three : ∀ g : ℤ → ℝ, ∑ p ∈ ({-1, 0, 1} : Finset ℤ), g p = g (-1) + g 0 + g 1 := by
    intro g
    rw [Finset.sum_insert (by decide), Finset.sum_insert (by decide), Finset.sum_singleton]
    ring
  simp only [three]
  have b1 : (-1 : ℤ) ≤ -1 ∧ (-1 : ℤ) ≤ 1 := by norm_num
  have b2 : (-1 : ℤ) ≤ 0 ∧ (0 : ℤ) ≤ 1 := by norm_num
  have b3 : (-1 : ℤ) ≤ 1 ∧ (1 : ℤ) ≤ 1 := by norm_num
  rw [fm _ _ b1 b1, fm _ _ b1 b2, fm _ _ b1 b3, fm _ _ b2 b1, fm _ _ b2 b2, fm _ _ b2 b3, fm _ _ b3 b1, fm _ _ b3 b2, fm _ _ b3 b3,
    fr _ _ b1 b1, fr _ _ b1 b2, fr _ _ b1 b3, fr _ _ b2 b1, fr _ _ b2 b2, fr _ _ b2 b3, fr _ _ b3 b1, fr _ _ b3 b2, fr _ _ b3 b3]
  have t1 := turn_cost X hX
  have t2 := turn_cost Y hY
  have t3 := turn_cost (-X) (by omega)
  have t4 := turn_cost (-Y) (by omega)
  norm_num at t1 t2 t3 t4 ⊢
  rw [t1, t2, t3, t4]
  ring

/-- One iteration with a `3 x 3` grid finds the displacement of the cross: `(y, x) = (0, 1)`. -/
example (S : Solver) : computeLateralOffsets S crossMeas crossRef 4 3 1 4 3 1 ((1 : ℤ) : ℝ) ((0 : ℤ) : ℝ) = .ok (((0 : ℤ) : ℝ) + 0, ((1 : ℤ) : ℝ) + 0) := by
  refine C64_quadratic S crossMeas crossRef 4 3 1 4 3 1 1 0 ⟨by norm_num, by norm_num, by norm_num, by norm_num, by norm_num, by norm_num⟩
    (by norm_num) 0 0 ?_
  rintro cx cy step (⟨rfl, rfl, rfl⟩ | ⟨h, -⟩ | ⟨k, h, h', -⟩)
  · refine ⟨4, 0, 4, 0, by norm_num [fresolution], by norm_num [fresolution], fun x hx y hy => ?_⟩
    have get : ∀ z ∈ trials 3 1 0, ∃ k : ℤ, z = k ∧ -1 ≤ k ∧ k ≤ 1 := by
      intro z hz
      obtain ⟨k, hk, rfl⟩ := List.mem_map.mp hz
      have := List.mem_range.mp hk
      refine ⟨(k : ℤ) - 1, ?_, by omega, by omega⟩
      push_cast
      ring
    obtain ⟨X, rfl, hX⟩ := get x hx
    obtain ⟨Y, rfl, hY⟩ := get y hy
    have := cross_mismatch X Y hX hY
    refine Eq.trans this ?_
    ring
  · exact absurd h (by norm_num)
  · omega

/-- A single bright pixel displaced by `(1, -1)` from the coarse guess `(0, 2)` meets the hypotheses of `C64_true_displacement` and `C64_odd_bias`. -/
example (n : ℕ) (hn : 4 ≤ n) : ∃ meas ref : Arr2 ℝ, at0 ref 0 0 = 1 ∧ (∀ p q, at0 meas p q = at0 ref (p - (2 + -1)) (q - (0 + 1))) ∧
    ∀ p q, at0 ref p q ≠ 0 → (p ∈ window n ∧ q ∈ window n) ∧ (p + -1 ∈ window n ∧ q + 1 ∈ window n) := by
  have key : ∀ (a : Arr2 ℝ) (p q : ℤ), at0 a p q = (a.px ((a.nr : ℤ) / 2 + p) ((a.nc : ℤ) / 2 + q)).getD 0 := fun a p q => rfl
  have href : ∀ p q, at0 (Arr2.full 1 1 (1 : ℝ)) p q = if p = 0 ∧ q = 0 then 1 else 0 := by
    intro p q
    rw [key]
    show ((Arr2.full 1 1 (1 : ℝ)).px (((1 : ℕ) : ℤ) / 2 + p) (((1 : ℕ) : ℤ) / 2 + q)).getD 0 = _
    split_ifs with h
    · obtain ⟨rfl, rfl⟩ := h; rfl
    · rw [Arr2.px_of_not_inB]
      · rfl
      · intro hb
        have h1 : (0 ≤ (((1 : ℕ) : ℤ) / 2 + p) ∧ (((1 : ℕ) : ℤ) / 2 + p) < ((1 : ℕ) : ℤ)) ∧ (0 ≤ (((1 : ℕ) : ℤ) / 2 + q) ∧ (((1 : ℕ) : ℤ) / 2 + q) < ((1 : ℕ) : ℤ)) := hb
        omega
  refine ⟨⟨4, 4, fun i j => if (i : ℕ) = 3 ∧ (j : ℕ) = 3 then 1 else 0⟩, Arr2.full 1 1 1, by rw [href]; simp, ?_, ?_⟩
  · intro p q
    rw [href, key]
    show ((⟨4, 4, fun i j => if (i : ℕ) = 3 ∧ (j : ℕ) = 3 then 1 else 0⟩ : Arr2 ℝ).px (((4 : ℕ) : ℤ) / 2 + p) (((4 : ℕ) : ℤ) / 2 + q)).getD 0 = _
    by_cases hb : (0 ≤ (((4 : ℕ) : ℤ) / 2 + p) ∧ (((4 : ℕ) : ℤ) / 2 + p) < ((4 : ℕ) : ℤ)) ∧ (0 ≤ (((4 : ℕ) : ℤ) / 2 + q) ∧ (((4 : ℕ) : ℤ) / 2 + q) < ((4 : ℕ) : ℤ))
    · rw [Arr2.px_of_inB _ hb, Option.getD_some]
      refine if_congr ?_ rfl rfl
      show (((4 : ℕ) : ℤ) / 2 + p).toNat = 3 ∧ (((4 : ℕ) : ℤ) / 2 + q).toNat = 3 ↔ _
      omega
    · rw [Arr2.px_of_not_inB _ hb, if_neg (by omega)]
      rfl
  · intro p q h
    rw [href] at h
    have : p = 0 ∧ q = 0 := by by_contra hc; exact h (if_neg hc)
    obtain ⟨rfl, rfl⟩ := this
    simp only [mem_window]
    omega

end Coralign.Props
