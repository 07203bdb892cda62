import Verif.Model.GridSearch
import Verif.Spec.Search
import Verif.Props.FindOpt
import Verif.Props.ThinFilm
import Mathlib.Data.List.GetD

/-!
# Exactness of one quadratic-fit step
-/

namespace Coralign.Props

open Coralign Coralign.Spec

/-- Specification: a list has three different entries. -/
def ThreeValues (l : List ℝ) : Prop := ∃ x ∈ l, ∃ y ∈ l, ∃ z ∈ l, x ≠ y ∧ x ≠ z ∧ y ≠ z

theorem costGrid_ok (xs ys : List ℝ) (cost : ℝ → ℝ → Res ℝ) (F : ℝ → ℝ → ℝ) (h : ∀ x ∈ xs, ∀ y ∈ ys, cost x y = .ok (F x y)) :
    costGrid xs ys cost = .ok ⟨ys.length, xs.length, fun i j => F (xs.get j) (ys.get i)⟩ := by
  unfold costGrid
  rw [mapM_ok (fun y => xs.mapM fun x => cost x y) (fun y => xs.map fun x => F x y) ys (fun y hy =>
    mapM_ok (fun x => cost x y) (fun x => F x y) xs fun x hx => h x hx y hy)]
  show Except.ok _ = Except.ok _
  congr 2
  funext i j
  simp [List.getD]

theorem grid_determines (xs ys : List ℝ) (hx : ThreeValues xs) (hy : ThreeValues ys) :
    DeterminesQuadratic xs ys (Arr2.full ys.length xs.length true) := by
  intro a b c d e f h
  have h' : ∀ x ∈ xs, ∀ y ∈ ys, a * x ^ 2 + b * (x * y) + c * y ^ 2 + d * x + e * y + f = 0 := by
    intro x hx y hy
    obtain ⟨j, hj, rfl⟩ := List.mem_iff_getElem.mp hx
    obtain ⟨i, hi, rfl⟩ := List.mem_iff_getElem.mp hy
    refine h i j _ _ ?_ (List.getElem?_eq_getElem hj) (List.getElem?_eq_getElem hi)
    rw [Arr2.px_full, if_pos]
    constructor <;> constructor <;> simp <;> omega
  obtain ⟨x1, hx1, x2, hx2, x3, hx3, h12, h13, h23⟩ := hx
  obtain ⟨y1, hy1, y2, hy2, y3, hy3, k12, k13, k23⟩ := hy
  have row : ∀ y ∈ ys, a = 0 ∧ b * y + d = 0 ∧ c * y ^ 2 + e * y + f = 0 := by
    intro y hy
    refine quadratic_three_zeros a (b * y + d) (c * y ^ 2 + e * y + f) x1 x2 x3 h12 h13 h23 ?_ ?_ ?_
    · linear_combination h' x1 hx1 y hy
    · linear_combination h' x2 hx2 y hy
    · linear_combination h' x3 hx3 y hy
  have hb : b = 0 := by
    have : b * (y1 - y2) = 0 := by linear_combination (row y1 hy1).2.1 - (row y2 hy2).2.1
    exact (mul_eq_zero.mp this).resolve_right (sub_ne_zero.mpr k12)
  have hd : d = 0 := by have := (row y1 hy1).2.1; rw [hb] at this; linarith
  obtain ⟨hc, he, hf⟩ := quadratic_three_zeros c e f y1 y2 y3 k12 k13 k23 (row y1 hy1).2.2 (row y2 hy2).2.2 (row y3 hy3).2.2
  exact ⟨(row y1 hy1).1, hb, hc, hd, he, hf⟩

/-- The fit of a paraboloid returns its centre. -/
theorem gridFit_paraboloid (S : Solver) (xs ys : List ℝ) (F : ℝ → ℝ → ℝ) (x0 y0 : ℝ) (hx : ThreeValues xs) (hy : ThreeValues ys)
    (h : Paraboloid F xs ys x0 y0) :
    gridFit S xs ys ⟨ys.length, xs.length, fun i j => F (xs.get j) (ys.get i)⟩ = .ok (x0, y0) := by
  obtain ⟨a, b, c, f, hD, hC, hF⟩ := h.form
  have hs : SamplesQuadratic xs ys ⟨ys.length, xs.length, fun i j => F (xs.get j) (ys.get i)⟩ (Arr2.full ys.length xs.length true) a b c
      (-2 * a * x0 - b * y0) (-2 * c * y0 - b * x0) (a * x0 ^ 2 + b * (x0 * y0) + c * y0 ^ 2 + f) := by
    intro i j x y _ hx hy
    obtain ⟨hj, rfl⟩ := List.getElem?_eq_some_iff.mp hx
    obtain ⟨hi, rfl⟩ := List.getElem?_eq_some_iff.mp hy
    refine (Arr2.px_val (a := ⟨ys.length, xs.length, fun i j => F (xs.get j) (ys.get i)⟩) (⟨i, hi⟩ : Fin ys.length)
      (⟨j, hj⟩ : Fin xs.length)).trans ?_
    congr 1
    refine (hF _ (List.getElem_mem hj) _ (List.getElem_mem hi)).trans ?_
    ring
  obtain ⟨x, y, e, e1, e2⟩ := (C14_stationary_point S xs ys ⟨ys.length, xs.length, fun i j => F (xs.get j) (ys.get i)⟩
    (Arr2.full ys.length xs.length true) rfl rfl rfl rfl a b c _ _ _ hs (grid_determines xs ys hx hy)).1 hD hC
  refine Eq.trans e ?_
  have hD0 : b * b - 4 * a * c ≠ 0 := by
    intro h0
    rw [h0, abs_zero] at hD
    norm_num at hD
  have hxx : x = x0 := by
    have : (b * b - 4 * a * c) * (x - x0) = 0 := by linear_combination b * e2 - 2 * c * e1
    exact sub_eq_zero.mp ((mul_eq_zero.mp this).resolve_left hD0)
  have hyy : y = y0 := by
    have hc : c ≠ 0 := by
      intro h0
      rw [h0] at hC
      norm_num at hC
    have : 2 * c * (y - y0) = 0 := by rw [hxx] at e2; linear_combination e2
    exact sub_eq_zero.mp ((mul_eq_zero.mp this).resolve_left (by simpa using hc))
  rw [hxx, hyy]

theorem getD_range_map {n : ℕ} (f : ℕ → ℝ) (k : ℕ) (hk : k < n) : ((List.range n).map f).getD k 0 = f k := by
  rw [List.getD_eq_getElem _ _ (by simpa using hk)]
  simp

/-- An arithmetic list of three or more entries has three values. -/
theorem three_of_affine (n : ℕ) (hn : 3 ≤ n) (s t : ℝ) (hs : s ≠ 0) : ThreeValues ((List.range n).map fun k : ℕ => (k : ℝ) * s + t) := by
  refine ⟨_, List.mem_map.mpr ⟨0, List.mem_range.mpr (by omega), rfl⟩, _, List.mem_map.mpr ⟨1, List.mem_range.mpr (by omega), rfl⟩, _,
    List.mem_map.mpr ⟨2, List.mem_range.mpr (by omega), rfl⟩, ?_, ?_, ?_⟩ <;> push_cast <;> intro h <;> apply hs <;> linarith

theorem stepVec_trials (n : ℕ) (step c : ℝ) : stepVec n step c = trials n step c := by
  unfold stepVec trials
  refine List.map_congr_left fun k _ => ?_
  ring

theorem trials_three (n : ℕ) (hn : 3 ≤ n) (step c : ℝ) (hs : step ≠ 0) : ThreeValues (trials n step c) := by
  have := three_of_affine n hn step (-(((n : ℝ) - 1) / 2 * step) + c) hs
  unfold trials
  convert this using 3
  ring

theorem trials_ne_nil (n : ℕ) (hn : 0 < n) (step c : ℝ) : trials n step c ≠ [] := by
  intro h0
  have := congrArg List.length h0
  simp [trials] at this
  omega

theorem linspaceList_three (a b : ℝ) (n : ℕ) (hn : 3 ≤ n) (h : a ≠ b) : ThreeValues (linspaceList a b n) := by
  have h1 : (n : ℝ) - 1 ≠ 0 := by
    have : (3 : ℝ) ≤ n := by exact_mod_cast hn
    linarith
  have := three_of_affine n hn ((b - a) / ((n : ℝ) - 1)) a (div_ne_zero (sub_ne_zero.mpr (Ne.symm h)) h1)
  unfold linspaceList linspace
  convert this using 3
  ring

theorem ThreeValues.map {l : List ℝ} (h : ThreeValues l) (f : ℝ → ℝ) (hf : Function.Injective f) : ThreeValues (l.map f) := by
  obtain ⟨x, hx, y, hy, z, hz, h1, h2, h3⟩ := h
  exact ⟨f x, List.mem_map_of_mem hx, f y, List.mem_map_of_mem hy, f z, List.mem_map_of_mem hz, fun e => h1 (hf e), fun e => h2 (hf e),
    fun e => h3 (hf e)⟩

/-- The grid minimum is a trial value, and no trial value is better. -/
theorem gridArgmin_spec (xs ys : List ℝ) (F : ℝ → ℝ → ℝ) (hx : xs ≠ []) (hy : ys ≠ []) :
    (gridArgmin xs ys ⟨ys.length, xs.length, fun i j => F (xs.get j) (ys.get i)⟩).1 ∈ xs ∧
    (gridArgmin xs ys ⟨ys.length, xs.length, fun i j => F (xs.get j) (ys.get i)⟩).2 ∈ ys ∧
    ∀ x ∈ xs, ∀ y ∈ ys, F (gridArgmin xs ys ⟨ys.length, xs.length, fun i j => F (xs.get j) (ys.get i)⟩).1
      (gridArgmin xs ys ⟨ys.length, xs.length, fun i j => F (xs.get j) (ys.get i)⟩).2 ≤ F x y := by
  have hm := argmax2_spec (Arr2.map (fun v : ℝ => -v) ⟨ys.length, xs.length, fun i j => F (xs.get j) (ys.get i)⟩)
    (show 0 < ys.length from List.length_pos_iff.mpr hy) (show 0 < xs.length from List.length_pos_iff.mpr hx)
  unfold gridArgmin
  simp only
  generalize hb : argmax2 (Arr2.map (fun v : ℝ => -v) ⟨ys.length, xs.length, fun i j => F (xs.get j) (ys.get i)⟩) = b at hm ⊢
  have hr : b.1 < ys.length := hm.row
  have hc : b.2 < xs.length := hm.col
  rw [List.getD_eq_getElem _ _ hc, List.getD_eq_getElem _ _ hr]
  refine ⟨List.getElem_mem hc, List.getElem_mem hr, fun x hx' y hy' => ?_⟩
  obtain ⟨j, hj, rfl⟩ := List.mem_iff_getElem.mp hx'
  obtain ⟨i, hi, rfl⟩ := List.mem_iff_getElem.mp hy'
  have := hm.most (⟨i, hi⟩ : Fin ys.length) (⟨j, hj⟩ : Fin xs.length)
  exact neg_le_neg_iff.mp this

end Coralign.Props
