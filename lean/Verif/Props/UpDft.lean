import Verif.Model.PsfFit
import Mathlib.Tactic.FieldSimp

/-!
# Property C55: the upsampled DFT
-/

namespace Coralign.Props

open Coralign Finset

/-- Specification: the discrete Fourier sum at the (possibly fractional) frequencies `(p, q)`, in cycles per axis length. -/
noncomputable def dftAt (a : Arr2 ℂ) (p q : ℝ) : ℂ :=
  ∑ i : Fin a.nr, ∑ j : Fin a.nc, a.val i j *
    Complex.exp (-2 * Real.pi * Complex.I * (p * ((i : ℕ) : ℝ) / a.nr + q * ((j : ℕ) : ℝ) / a.nc))

theorem fftfreqNum_mod (n k : ℕ) : ∃ z : ℤ, fftfreqNum n k = (k : ℤ) + n * z := by
  unfold fftfreqNum
  split
  · exact ⟨0, by ring⟩
  · exact ⟨-1, by ring⟩

theorem fftfreqNum_one (n : ℕ) (hn : 2 ≤ n) : fftfreqNum n 1 = 1 ∨ fftfreqNum n 1 = -1 := by
  unfold fftfreqNum
  split
  · exact Or.inl rfl
  · right; push_cast; omega

@[simp] theorem fftfreqNum_zero (n : ℕ) : fftfreqNum n 0 = 0 := by simp [fftfreqNum]

theorem upsampled_val (a : Arr2 ℂ) (s0 s1 : ℤ) (kappa o0 o1 : ℝ) (out : Arr2 ℂ)
    (h : computeUpsampledDft a [s0, s1] kappa [o0, o1] = .ok out) :
    kappa ≠ 0 ∧ out.nr = s0.toNat ∧ out.nc = s1.toNat ∧
    ∀ (v u : ℤ), 0 ≤ v → v < s0 → 0 ≤ u → u < s1 → out.px v u = some (∑ i : Fin a.nr, ∑ j : Fin a.nc, a.val i j *
      cis (-(((v : ℝ) - o0) / kappa * fftfreqNum a.nr i / a.nr + ((u : ℝ) - o1) / kappa * fftfreqNum a.nc j / a.nc))) := by
  unfold computeUpsampledDft at h
  simp only at h
  by_cases c : kappa = 0 ∨ a.nr = 0 ∨ a.nc = 0
  · rw [if_pos c] at h; cases h
  rw [if_neg c] at h
  push Not at c
  obtain ⟨k0, n0, m0⟩ := c
  obtain rfl := Except.ok.inj h
  refine ⟨k0, rfl, rfl, fun v u hv hv' hu hu' => ?_⟩
  rw [Arr2.px_of_inB _ (by unfold tensorPass; simp only; omega)]
  congr 1
  unfold tensorPass dftKernel
  simp only
  have hn : (a.nr : ℝ) ≠ 0 := by exact_mod_cast n0
  have hm : (a.nc : ℝ) ≠ 0 := by exact_mod_cast m0
  refine Finset.sum_congr rfl fun i _ => ?_
  rw [Finset.mul_sum]
  refine Finset.sum_congr rfl fun j _ => ?_
  have e1 : ((v.toNat : ℕ) : ℝ) = v := by exact_mod_cast Int.toNat_of_nonneg hv
  have e2 : ((u.toNat : ℕ) : ℝ) = u := by exact_mod_cast Int.toNat_of_nonneg hu
  rw [e1, e2, ← mul_assoc, ← cis_add, mul_comm]
  congr 2
  field_simp
  ring

/-- A whole number of periods may be added to the frequency. -/
theorem cis_fftfreq (n k : ℕ) (hn : 0 < n) (t : ℤ) : cis (-((t : ℝ) * fftfreqNum n k / n)) = cis (-((t : ℝ) * (k : ℝ) / n)) := by
  obtain ⟨z, hz⟩ := fftfreqNum_mod n k
  rw [hz]
  have : (n : ℝ) ≠ 0 := by positivity
  rw [← cis_add_int (-((t : ℝ) * (k : ℝ) / n)) (-(t * z))]
  congr 1
  push_cast
  field_simp
  ring

/-- **C55.** Wherever the upsampled grid hits a whole frequency, the upsampled DFT has the value of the plain DFT there: if
sample `(v, u)` of the region is `kappa t` and `kappa s` samples from the region's offset, it is the DFT at `(t, s)`. -/
theorem C55_agrees (a : Arr2 ℂ) (s0 s1 : ℤ) (kappa o0 o1 : ℝ) (out : Arr2 ℂ)
    (h : computeUpsampledDft a [s0, s1] kappa [o0, o1] = .ok out) (v u t s : ℤ) (hv : 0 ≤ v) (hv' : v < s0) (hu : 0 ≤ u)
    (hu' : u < s1) (ht : (v : ℝ) - o0 = kappa * t) (hs : (u : ℝ) - o1 = kappa * s) : out.px v u = some (dftAt a t s) := by
  obtain ⟨hk, -, -, hval⟩ := upsampled_val a s0 s1 kappa o0 o1 out h
  rw [hval v u hv hv' hu hu', ht, hs]
  congr 1
  unfold dftAt
  refine Finset.sum_congr rfl fun i _ => Finset.sum_congr rfl fun j _ => ?_
  congr 1
  have e1 := cis_fftfreq a.nr i (Nat.lt_of_le_of_lt (Nat.zero_le _) i.isLt) t
  have e2 := cis_fftfreq a.nc j (Nat.lt_of_le_of_lt (Nat.zero_le _) j.isLt) s
  rw [mul_div_cancel_left₀ _ hk, mul_div_cancel_left₀ _ hk, neg_add, cis_add, e1, e2, ← cis_add]
  unfold cis
  congr 1
  push_cast
  ring

/-- **C55.** With factor 1, the full region and no offset it is `np.fft.fft2`. -/
theorem C55_plain (n m : ℕ) (hn : 0 < n) (hm : 0 < m) (f : Fin n → Fin m → ℂ) :
    ∃ out, computeUpsampledDft ⟨n, m, f⟩ [n, m] 1 [0, 0] = .ok out ∧ out.nr = n ∧ out.nc = m ∧
      ∀ (p : Fin n) (q : Fin m), out.px (p : ℕ) (q : ℕ) = some (dftAt ⟨n, m, f⟩ (p : ℕ) (q : ℕ)) := by
  obtain ⟨out, h⟩ : ∃ out, computeUpsampledDft ⟨n, m, f⟩ [(n : ℤ), (m : ℤ)] 1 [0, 0] = .ok out := by
    unfold computeUpsampledDft
    simp only
    rw [if_neg (by push Not; exact ⟨one_ne_zero, by omega, by omega⟩)]
    exact ⟨_, rfl⟩
  obtain ⟨-, h1, h2, -⟩ := upsampled_val _ _ _ _ _ _ _ h
  refine ⟨out, h, by simpa using h1, by simpa using h2, fun p q => ?_⟩
  have := C55_agrees _ _ _ _ _ _ _ h (p : ℕ) (q : ℕ) (p : ℕ) (q : ℕ) (by omega) (by exact_mod_cast p.isLt) (by omega)
    (by exact_mod_cast q.isLt) (by simp) (by simp)
  simpa using this

/-- **C55.** Moving the region: with the offset increased by `(d, e)` samples, sample `(v + d, u + e)` is what sample `(v, u)` was.
-/
theorem C55_offset (a : Arr2 ℂ) (s0 s1 : ℤ) (kappa o0 o1 : ℝ) (d e : ℤ) (out out' : Arr2 ℂ)
    (h : computeUpsampledDft a [s0, s1] kappa [o0, o1] = .ok out)
    (h' : computeUpsampledDft a [s0, s1] kappa [o0 + d, o1 + e] = .ok out') (v u : ℤ) (hv : 0 ≤ v ∧ v < s0) (hu : 0 ≤ u ∧ u < s1)
    (hv' : 0 ≤ v + d ∧ v + d < s0) (hu' : 0 ≤ u + e ∧ u + e < s1) : out'.px (v + d) (u + e) = out.px v u := by
  obtain ⟨-, -, -, h1⟩ := upsampled_val _ _ _ _ _ _ _ h
  obtain ⟨-, -, -, h2⟩ := upsampled_val _ _ _ _ _ _ _ h'
  rw [h1 v u hv.1 hv.2 hu.1 hu.2, h2 (v + d) (u + e) hv'.1 hv'.2 hu'.1 hu'.2]
  push_cast
  simp only [add_sub_add_right_eq_sub]

/-- **C55.** It is linear in the data. -/
theorem C55_linear (n m : ℕ) (f g : Fin n → Fin m → ℂ) (x y : ℂ) (s0 s1 : ℤ) (kappa o0 o1 : ℝ) (of og : Arr2 ℂ)
    (hf : computeUpsampledDft ⟨n, m, f⟩ [s0, s1] kappa [o0, o1] = .ok of)
    (hg : computeUpsampledDft ⟨n, m, g⟩ [s0, s1] kappa [o0, o1] = .ok og) :
    ∃ o, computeUpsampledDft ⟨n, m, fun i j => x * f i j + y * g i j⟩ [s0, s1] kappa [o0, o1] = .ok o ∧
      ∀ v u z w, of.px v u = some z → og.px v u = some w → o.px v u = some (x * z + y * w) := by
  obtain ⟨o, ho⟩ : ∃ o, computeUpsampledDft ⟨n, m, fun i j => x * f i j + y * g i j⟩ [s0, s1] kappa [o0, o1] = .ok o := by
    unfold computeUpsampledDft at hf ⊢
    simp only at hf ⊢
    split at hf
    · cases hf
    · next c => rw [if_neg c]; exact ⟨_, rfl⟩
  obtain ⟨-, f1, f2, f3⟩ := upsampled_val _ _ _ _ _ _ _ hf
  obtain ⟨-, g1, g2, g3⟩ := upsampled_val _ _ _ _ _ _ _ hg
  obtain ⟨-, -, -, o3⟩ := upsampled_val _ _ _ _ _ _ _ ho
  refine ⟨o, ho, fun v u z w hz hw => ?_⟩
  have hb := (Arr2.px_isSome of v u).mp (by rw [hz]; rfl)
  rw [f1, f2] at hb
  have b1 : 0 ≤ v := hb.1.1
  have b2 : v < s0 := by omega
  have b3 : 0 ≤ u := hb.2.1
  have b4 : u < s1 := by omega
  rw [f3 v u b1 b2 b3 b4] at hz
  rw [g3 v u b1 b2 b3 b4] at hw
  rw [o3 v u b1 b2 b3 b4, ← Option.some.inj hz, ← Option.some.inj hw]
  congr 1
  simp only [Finset.mul_sum, ← Finset.sum_add_distrib]
  refine Finset.sum_congr rfl fun i _ => Finset.sum_congr rfl fun j _ => ?_
  ring

/-- **C55.** Which arguments are accepted. -/
theorem C55_accepts_iff (a : Arr2 ℂ) (sizes : List ℤ) (kappa : ℝ) (offs : List ℝ) (hr : 0 < a.nr) (hc : 0 < a.nc) :
    (∃ out, computeUpsampledDft a sizes kappa offs = .ok out) ↔ sizes.length = 2 ∧ offs.length = 2 ∧ kappa ≠ 0 := by
  constructor
  · rintro ⟨out, h⟩
    unfold computeUpsampledDft at h
    split at h
    · split at h
      · cases h
      · next c => push Not at c; exact ⟨rfl, rfl, c.1⟩
    · cases h
  · rintro ⟨h1, h2, h3⟩
    obtain ⟨s0, s1, rfl⟩ := List.length_eq_two.mp h1
    obtain ⟨o0, o1, rfl⟩ := List.length_eq_two.mp h2
    unfold computeUpsampledDft
    simp only
    rw [if_neg (by push Not; exact ⟨h3, by omega, by omega⟩)]
    exact ⟨_, rfl⟩

/-- `C55_agrees` applies: factor 4, a region of 5 samples around frequency 2, offset `2 - 4 * 2`. -/
example : (((2 : ℤ) : ℝ) - (2 - 4 * 2)) = 4 * ((2 : ℤ) : ℝ) := by norm_num

end Coralign.Props
