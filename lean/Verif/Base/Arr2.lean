import Verif.Base.Py

/-!
# Two-dimensional numpy arrays

`Arr2 α` is a shape together with one value per in-range index, so that equality in Lean is numpy's
"same shape and same elements", and an out-of-range read cannot be written down.  `px` is the
specification-level accessor: pixel `(i, j)` for *integer* coordinates, `none` outside the array.
-/

namespace Coralign



/-- A 2-D numpy array: `nr` rows, `nc` columns. -/
structure Arr2 (α : Type) where
  nr : Nat
  nc : Nat
  val : Fin nr → Fin nc → α

namespace Arr2

variable {α β : Type}

/-- Pixel at integer coordinates; `none` outside the array (no wrap-around). -/
def px (a : Arr2 α) (i j : Int) : Option α :=
  if h : (0 ≤ i ∧ i < a.nr) ∧ (0 ≤ j ∧ j < a.nc) then
    some (a.val ⟨i.toNat, by omega⟩ ⟨j.toNat, by omega⟩)
  else none

/-- Whether integer coordinates lie inside the array. -/
def InB (a : Arr2 α) (i j : Int) : Prop := (0 ≤ i ∧ i < a.nr) ∧ (0 ≤ j ∧ j < a.nc)

instance (a : Arr2 α) (i j : Int) : Decidable (a.InB i j) := by unfold InB; infer_instance

/-- Build an array from a function on natural-number indices. -/
def ofFn (nr nc : Nat) (f : Nat → Nat → α) : Arr2 α := ⟨nr, nc, fun i j => f i j⟩

/-- `np.full((nr, nc), v)`. -/
def full (nr nc : Nat) (v : α) : Arr2 α := ⟨nr, nc, fun _ _ => v⟩

/-- Elementwise function application. -/
def map (f : α → β) (a : Arr2 α) : Arr2 β := ⟨a.nr, a.nc, fun i j => f (a.val i j)⟩

@[simp] theorem ofFn_nr (nr nc : Nat) (f : Nat → Nat → α) : (ofFn nr nc f).nr = nr := rfl
@[simp] theorem ofFn_nc (nr nc : Nat) (f : Nat → Nat → α) : (ofFn nr nc f).nc = nc := rfl
@[simp] theorem full_nr (nr nc : Nat) (v : α) : (full nr nc v).nr = nr := rfl
@[simp] theorem full_nc (nr nc : Nat) (v : α) : (full nr nc v).nc = nc := rfl
@[simp] theorem map_nr (f : α → β) (a : Arr2 α) : (a.map f).nr = a.nr := rfl
@[simp] theorem map_nc (f : α → β) (a : Arr2 α) : (a.map f).nc = a.nc := rfl

theorem px_of_inB (a : Arr2 α) {i j : Int} (h : (0 ≤ i ∧ i < a.nr) ∧ (0 ≤ j ∧ j < a.nc)) :
    a.px i j = some (a.val ⟨i.toNat, by omega⟩ ⟨j.toNat, by omega⟩) := by
  unfold px; rw [dif_pos h]

theorem px_of_not_inB (a : Arr2 α) {i j : Int}
    (h : ¬ ((0 ≤ i ∧ i < a.nr) ∧ (0 ≤ j ∧ j < a.nc))) : a.px i j = none := by
  unfold px; rw [dif_neg h]

theorem px_isSome (a : Arr2 α) (i j : Int) :
    (a.px i j).isSome ↔ (0 ≤ i ∧ i < a.nr) ∧ (0 ≤ j ∧ j < a.nc) := by
  unfold px; split <;> simp_all

theorem px_eq_none (a : Arr2 α) (i j : Int) :
    a.px i j = none ↔ ¬ ((0 ≤ i ∧ i < a.nr) ∧ (0 ≤ j ∧ j < a.nc)) := by
  rw [← px_isSome]; cases a.px i j <;> simp

@[simp] theorem px_val (a : Arr2 α) (i : Fin a.nr) (j : Fin a.nc) :
    a.px (i : Nat) (j : Nat) = some (a.val i j) := by
  rw [px_of_inB]
  · simp
  · omega

/-- Two arrays are equal as soon as they have the same shape and the same pixels. -/
theorem ext_px {a b : Arr2 α} (hr : a.nr = b.nr) (hc : a.nc = b.nc)
    (h : ∀ i j : Int, 0 ≤ i → i < a.nr → 0 ≤ j → j < a.nc → a.px i j = b.px i j) : a = b := by
  obtain ⟨nr, nc, f⟩ := a
  obtain ⟨nr', nc', g⟩ := b
  simp only at hr hc
  subst hr; subst hc
  congr
  funext i j
  have := h i j (by omega) (by simp) (by omega) (by simp)
  have e1 := px_val (⟨nr, nc, f⟩ : Arr2 α) i j
  have e2 := px_val (⟨nr, nc, g⟩ : Arr2 α) i j
  rw [e1, e2] at this
  exact Option.some.inj this

theorem px_ofFn (nr nc : Nat) (f : Nat → Nat → α) (i j : Int) :
    (ofFn nr nc f).px i j =
      if (0 ≤ i ∧ i < nr) ∧ (0 ≤ j ∧ j < nc) then some (f i.toNat j.toNat) else none := by
  unfold px ofFn; split <;> simp_all

theorem px_full (nr nc : Nat) (v : α) (i j : Int) :
    (full nr nc v).px i j =
      if (0 ≤ i ∧ i < nr) ∧ (0 ≤ j ∧ j < nc) then some v else none := by
  unfold px full; split <;> simp_all

theorem px_ofFn_in {nr nc : Nat} (f : Nat → Nat → α) {i j : Int}
    (h : (0 ≤ i ∧ i < nr) ∧ (0 ≤ j ∧ j < nc)) : (ofFn nr nc f).px i j = some (f i.toNat j.toNat) := by
  rw [px_of_inB _ h]; rfl

theorem px_full_in {nr nc : Nat} (v : α) {i j : Int}
    (h : (0 ≤ i ∧ i < nr) ∧ (0 ≤ j ∧ j < nc)) : (full nr nc v).px i j = some v := by
  rw [px_of_inB _ h]; rfl

theorem px_map (f : α → β) (a : Arr2 α) (i j : Int) : (a.map f).px i j = (a.px i j).map f := by
  unfold px map; split <;> simp_all

/-! ### numpy slices -/

/-- Python/numpy normalisation of one slice bound `i` on an axis of length `n`:
negative bounds count from the end, and everything is clipped to `[0, n]`. -/
def sliceBound (n : Nat) (i : Int) : Nat :=
  if i < 0 then (max (i + n) 0).toNat else (min i n).toNat

theorem sliceBound_le (n : Nat) (i : Int) : sliceBound n i ≤ n := by
  unfold sliceBound; split <;> omega

/-- In-range bounds are left alone. -/
theorem sliceBound_of_le {n : Nat} {i : Int} (h0 : 0 ≤ i) (h1 : i ≤ n) :
    sliceBound n i = i.toNat := by
  unfold sliceBound; split <;> omega

/-- `a[r0:r1, c0:c1]`. -/
def slice (a : Arr2 α) (r0 r1 c0 c1 : Int) : Arr2 α where
  nr := sliceBound a.nr r1 - sliceBound a.nr r0
  nc := sliceBound a.nc c1 - sliceBound a.nc c0
  val := fun i j => a.val
    ⟨sliceBound a.nr r0 + i, by have := sliceBound_le a.nr r1; omega⟩
    ⟨sliceBound a.nc c0 + j, by have := sliceBound_le a.nc c1; omega⟩

theorem slice_nr (a : Arr2 α) (r0 r1 c0 c1 : Int) :
    (a.slice r0 r1 c0 c1).nr = sliceBound a.nr r1 - sliceBound a.nr r0 := rfl
theorem slice_nc (a : Arr2 α) (r0 r1 c0 c1 : Int) :
    (a.slice r0 r1 c0 c1).nc = sliceBound a.nc c1 - sliceBound a.nc c0 := rfl

theorem px_slice (a : Arr2 α) (r0 r1 c0 c1 : Int) (i j : Int) :
    (a.slice r0 r1 c0 c1).px i j =
      if (0 ≤ i ∧ i < (a.slice r0 r1 c0 c1).nr) ∧ (0 ≤ j ∧ j < (a.slice r0 r1 c0 c1).nc) then
        a.px (sliceBound a.nr r0 + i) (sliceBound a.nc c0 + j) else none := by
  have hr := sliceBound_le a.nr r1
  have hc := sliceBound_le a.nc c1
  have er := slice_nr a r0 r1 c0 c1
  have ec := slice_nc a r0 r1 c0 c1
  split
  · next h =>
    rw [px_of_inB _ h, px_of_inB a (by omega)]
    simp only [slice]
    congr 3 <;> omega
  · next h => rw [px_of_not_inB _ h]

theorem px_slice_in (a : Arr2 α) {r0 r1 c0 c1 : Int} {i j : Int}
    (h : (0 ≤ i ∧ i < (a.slice r0 r1 c0 c1).nr) ∧ (0 ≤ j ∧ j < (a.slice r0 r1 c0 c1).nc)) :
    (a.slice r0 r1 c0 c1).px i j = a.px (sliceBound a.nr r0 + i) (sliceBound a.nc c0 + j) := by
  rw [px_slice, if_pos h]

/-- `a[r0:r1, c0:c1] = b`.  numpy raises `ValueError` when the shapes do not agree.
Simplification: numpy would also accept a right-hand side with an axis of length 1 (broadcasting);
here only equal shapes are accepted. -/
def assign (a : Arr2 α) (r0 r1 c0 c1 : Int) (b : Arr2 α) : Res (Arr2 α) :=
  if h : b.nr = sliceBound a.nr r1 - sliceBound a.nr r0 ∧
         b.nc = sliceBound a.nc c1 - sliceBound a.nc c0 then
    .ok { nr := a.nr, nc := a.nc, val := fun i j =>
      if hh : (sliceBound a.nr r0 ≤ i.val ∧ i.val < sliceBound a.nr r1) ∧
              (sliceBound a.nc c0 ≤ j.val ∧ j.val < sliceBound a.nc c1) then
        b.val ⟨i.val - sliceBound a.nr r0, by omega⟩ ⟨j.val - sliceBound a.nc c0, by omega⟩
      else a.val i j }
  else .error .valueError

/-- Result of a successful slice assignment, pixel by pixel. -/
theorem assign_ok (a b : Arr2 α) (r0 r1 c0 c1 : Int)
    (hr : b.nr = sliceBound a.nr r1 - sliceBound a.nr r0)
    (hc : b.nc = sliceBound a.nc c1 - sliceBound a.nc c0) :
    ∃ o, a.assign r0 r1 c0 c1 b = .ok o ∧ o.nr = a.nr ∧ o.nc = a.nc ∧
      (∀ i j : Int, (sliceBound a.nr r0 ≤ i ∧ i < sliceBound a.nr r1) ∧
           (sliceBound a.nc c0 ≤ j ∧ j < sliceBound a.nc c1) →
          o.px i j = b.px (i - sliceBound a.nr r0) (j - sliceBound a.nc c0)) ∧
      (∀ i j : Int, ¬ ((sliceBound a.nr r0 ≤ i ∧ i < sliceBound a.nr r1) ∧
           (sliceBound a.nc c0 ≤ j ∧ j < sliceBound a.nc c1)) → o.px i j = a.px i j) := by
  unfold assign
  rw [dif_pos ⟨hr, hc⟩]
  have hr' := sliceBound_le a.nr r1
  have hc' := sliceBound_le a.nc c1
  refine ⟨_, rfl, rfl, rfl, ?_, ?_⟩
  · intro i j h
    rw [px_of_inB b (by omega), px_of_inB _ (by simp only; omega)]
    simp only
    rw [dif_pos (by omega)]
    congr 3 <;> omega
  · intro i j h
    by_cases hin : (0 ≤ i ∧ i < a.nr) ∧ (0 ≤ j ∧ j < a.nc)
    · rw [px_of_inB a hin, px_of_inB _ (by simp only; omega)]
      simp only
      rw [dif_neg (by omega)]
    · rw [px_of_not_inB a hin, px_of_not_inB _ (by simp only; omega)]

end Arr2
end Coralign
