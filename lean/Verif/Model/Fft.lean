import Verif.Base.Cis
import Verif.Base.Arr2

/-!
# Model of `do_fft` and `do_ifft` in `coralign/util/fresnelprop.py`

numpy's FFT is modelled by the discrete Fourier sums it documents.
-/

namespace Coralign

/-- `np.fft.fft2`: `A[p, q] = Σ a[i, j] exp(-2πi (p i/nr + q j/nc))`. -/
noncomputable def npFft2 (a : Arr2 ℂ) : Arr2 ℂ :=
  ⟨a.nr, a.nc, fun p q => ∑ i : Fin a.nr, ∑ j : Fin a.nc,
    a.val i j * cis (-(((p : ℕ) : ℝ) * ((i : ℕ) : ℝ) / a.nr + ((q : ℕ) : ℝ) * ((j : ℕ) : ℝ) / a.nc))⟩

/-- `np.fft.ifft2`: the inverse sums with numpy's default `1/(nr nc)`. -/
noncomputable def npIfft2 (a : Arr2 ℂ) : Arr2 ℂ :=
  ⟨a.nr, a.nc, fun p q => 1 / ((a.nr : ℂ) * a.nc) * ∑ i : Fin a.nr, ∑ j : Fin a.nc,
    a.val i j * cis (((p : ℕ) : ℝ) * ((i : ℕ) : ℝ) / a.nr + ((q : ℕ) : ℝ) * ((j : ℕ) : ℝ) / a.nc)⟩

/-- `np.fft.fftshift` (both axes): a roll by `n//2`. -/
def fftshift {α : Type} (a : Arr2 α) : Arr2 α :=
  ⟨a.nr, a.nc, fun i j => a.val (rollIdx a.nr (a.nr - a.nr / 2) i) (rollIdx a.nc (a.nc - a.nc / 2) j)⟩

/-- `np.fft.ifftshift` (both axes): a roll by `-(n//2)`. -/
def ifftshift {α : Type} (a : Arr2 α) : Arr2 α :=
  ⟨a.nr, a.nc, fun i j => a.val (rollIdx a.nr (a.nr / 2) i) (rollIdx a.nc (a.nc / 2) j)⟩

/-- `do_fft`, `coralign/util/fresnelprop.py` lines 30-32. -/
noncomputable def doFft (e : Arr2 ℂ) : Arr2 ℂ := fftshift (npFft2 (ifftshift e))

/-- `do_ifft`, `coralign/util/fresnelprop.py` lines 54-56. -/
noncomputable def doIfft (e : Arr2 ℂ) : Arr2 ℂ := fftshift (npIfft2 (ifftshift e))

end Coralign
