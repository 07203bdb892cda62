import Verif.Model.PadCrop
import Verif.Spec.Window

/-! # Specification vocabulary for `pad_crop` -/

namespace Coralign

variable {α : Type}

/-- Chain of `pad_crop` calls through a list of requested sizes (each an arbitrary Python iterable of ints). -/
def padCropChain (ev : α) (a : Arr2 α) (sizes : List (List Int)) : Res (Arr2 α) :=
  sizes.foldlM (fun b s => padCrop b s ev) a

/-- A size that `pad_crop` accepts. -/
def ValidSize (s : List Int) : Prop := ∃ h w : Int, s = [h, w] ∧ 0 < h ∧ 0 < w

end Coralign
