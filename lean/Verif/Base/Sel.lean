import Mathlib.Data.Real.Basic

/-!
# Selection by a proposition

`sel P v` is `v` where `P` holds and zero elsewhere: boolean-mask selection over the reals, where comparisons
are not computable.
-/

namespace Coralign

open Classical in
/-- `v` if `P` holds, else zero. -/
noncomputable def sel {M : Type} [Zero M] (P : Prop) (v : M) : M := if P then v else 0

variable {M : Type} [Zero M]

theorem sel_pos {P : Prop} (h : P) (v : M) : sel P v = v := by unfold sel; exact if_pos h
theorem sel_neg {P : Prop} (h : ¬ P) (v : M) : sel P v = 0 := by unfold sel; exact if_neg h
@[simp] theorem sel_zero (P : Prop) : sel P (0 : M) = 0 := by unfold sel; exact ite_self 0
@[simp] theorem sel_true (v : M) : sel True v = v := sel_pos trivial v
@[simp] theorem sel_false (v : M) : sel False v = 0 := sel_neg (fun h => h) v
theorem sel_congr {P Q : Prop} (h : P ↔ Q) (v : M) : sel P v = sel Q v := by rw [propext h]

end Coralign
