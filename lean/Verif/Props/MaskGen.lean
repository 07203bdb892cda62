import Verif.Model.MaskGen
import Verif.Lemmas.PadCrop
import Verif.Props.PadCrop
import Verif.Props.Math
import Verif.Props.Dmhtoph
import Verif.Props.FitSurf

/-!
# Property C60: rotating, shifting and downsampling a mask
-/

namespace Coralign.Props

open Coralign Finset

/-! ### The smoothed mask is a cyclic convolution -/

/-- `(p - i) mod n`. -/
def subIdx (n : ℕ) (p i : Fin n) : Fin n := ⟨((p : ℕ) + n - (i : ℕ)) % n, Nat.mod_lt _ (Nat.lt_of_le_of_lt (Nat.zero_le _) i.isLt)⟩

theorem dvd_subIdx (n : ℕ) (p i i' : Fin n) : (n : ℤ) ∣ ((i : ℕ) + (i' : ℕ) - (p : ℕ) : ℤ) ↔ i' = subIdx n p i := by
  have hi := i.isLt
  have hi' := i'.isLt
  have hp := p.isLt
  rw [Fin.ext_iff]
  unfold subIdx
  simp only
  constructor
  · rintro ⟨c, hc⟩
    have h1 : (n : ℤ) * c < n * 2 := by omega
    have h2 : (n : ℤ) * (-1) < n * c := by omega
    have hn : (0 : ℤ) < n := by omega
    have c1 := lt_of_mul_lt_mul_left h1 hn.le
    have c2 := lt_of_mul_lt_mul_left h2 hn.le
    obtain rfl | rfl : c = 0 ∨ c = 1 := by omega
    · rw [show (p : ℕ) + n - i = i' + n by omega, Nat.add_mod_right, Nat.mod_eq_of_lt hi']
    · rw [show (p : ℕ) + n - i = i' by omega, Nat.mod_eq_of_lt hi']
  · intro h
    by_cases hle : (i : ℕ) ≤ p
    · rw [show (p : ℕ) + n - i = (p - i) + n by omega, Nat.add_mod_right, Nat.mod_eq_of_lt (by omega)] at h
      exact ⟨0, by omega⟩
    · rw [Nat.mod_eq_of_lt (by omega)] at h
      exact ⟨1, by omega⟩

theorem sum_char (n : ℕ) (hn : 0 < n) (p i i' : Fin n) :
    ∑ s : Fin n, cis (((s : ℕ) : ℝ) * ((i : ℕ) : ℝ) / n) * cis (((s : ℕ) : ℝ) * ((i' : ℕ) : ℝ) / n) * cis (-(((p : ℕ) : ℝ) * ((s : ℕ) : ℝ) / n)) =
      if i' = subIdx n p i then (n : ℂ) else 0 := by
  have h := sum_cis n hn ((i : ℕ) + (i' : ℕ) - (p : ℕ) : ℤ)
  rw [if_congr (dvd_subIdx n p i i') rfl rfl] at h
  rw [← h]
  refine Finset.sum_congr rfl fun s _ => ?_
  rw [← cis_add, ← cis_add]
  congr 1
  push_cast
  ring

/-- The discrete convolution theorem for the transforms as the code scales them. -/
theorem fft_conv (n : ℕ) (hn : 0 < n) (a b : Fin n → Fin n → ℂ) (p q : Fin n) :
    (npFft2 (((npIfft2 ⟨n, n, a⟩).map fun v => v * (n : ℂ)).mulC ((npIfft2 ⟨n, n, b⟩).map fun v => v * (n : ℂ)))).val p q =
      ∑ i : Fin n, ∑ j : Fin n, a i j * b (subIdx n p i) (subIdx n q j) := by
  have hn' : (n : ℂ) ≠ 0 := by exact_mod_cast hn.ne'
  have e1 : (npFft2 (((npIfft2 ⟨n, n, a⟩).map fun v => v * (n : ℂ)).mulC ((npIfft2 ⟨n, n, b⟩).map fun v => v * (n : ℂ)))).val p q =
      ∑ s : Fin n, ∑ t : Fin n, ((1 / ((n : ℂ) * n) * ∑ i : Fin n, ∑ j : Fin n,
        a i j * cis (((s : ℕ) : ℝ) * ((i : ℕ) : ℝ) / n + ((t : ℕ) : ℝ) * ((j : ℕ) : ℝ) / n)) * n) *
        ((1 / ((n : ℂ) * n) * ∑ i : Fin n, ∑ j : Fin n,
        b i j * cis (((s : ℕ) : ℝ) * ((i : ℕ) : ℝ) / n + ((t : ℕ) : ℝ) * ((j : ℕ) : ℝ) / n)) * n) *
        cis (-(((p : ℕ) : ℝ) * ((s : ℕ) : ℝ) / n + ((q : ℕ) : ℝ) * ((t : ℕ) : ℝ) / n)) := by
    show (∑ s : Fin n, ∑ t : Fin n, ((((npIfft2 ⟨n, n, a⟩).map fun v => v * (n : ℂ)).mulC ((npIfft2 ⟨n, n, b⟩).map fun v => v * (n : ℂ))).val s t : ℂ) *
        cis (-(((p : ℕ) : ℝ) * ((s : ℕ) : ℝ) / n + ((q : ℕ) : ℝ) * ((t : ℕ) : ℝ) / n))) = _
    refine Finset.sum_congr rfl fun s _ => Finset.sum_congr rfl fun t _ => ?_
    refine congrArg₂ (· * ·) ?_ rfl
    refine congrArg₂ (· * ·) rfl ?_
    exact congrArg (fun o : Option ℂ => o.getD 0) (Arr2.px_val ((npIfft2 ⟨n, n, b⟩).map fun v => v * (n : ℂ)) s t)
  rw [e1]
  have e2 : ∀ s t : Fin n, ((1 / ((n : ℂ) * n) * ∑ i : Fin n, ∑ j : Fin n,
        a i j * cis (((s : ℕ) : ℝ) * ((i : ℕ) : ℝ) / n + ((t : ℕ) : ℝ) * ((j : ℕ) : ℝ) / n)) * n) *
        ((1 / ((n : ℂ) * n) * ∑ i : Fin n, ∑ j : Fin n,
        b i j * cis (((s : ℕ) : ℝ) * ((i : ℕ) : ℝ) / n + ((t : ℕ) : ℝ) * ((j : ℕ) : ℝ) / n)) * n) *
        cis (-(((p : ℕ) : ℝ) * ((s : ℕ) : ℝ) / n + ((q : ℕ) : ℝ) * ((t : ℕ) : ℝ) / n)) =
      ∑ x : Fin n × Fin n, ∑ y : Fin n × Fin n, (1 / ((n : ℂ) * n)) * (a x.1 x.2 * b y.1 y.2) *
        ((cis (((s : ℕ) : ℝ) * ((x.1 : ℕ) : ℝ) / n) * cis (((s : ℕ) : ℝ) * ((y.1 : ℕ) : ℝ) / n) * cis (-(((p : ℕ) : ℝ) * ((s : ℕ) : ℝ) / n))) *
        (cis (((t : ℕ) : ℝ) * ((x.2 : ℕ) : ℝ) / n) * cis (((t : ℕ) : ℝ) * ((y.2 : ℕ) : ℝ) / n) * cis (-(((q : ℕ) : ℝ) * ((t : ℕ) : ℝ) / n)))) := by
    intro s t
    rw [← Fintype.sum_prod_type' (fun i j => a i j * cis (((s : ℕ) : ℝ) * ((i : ℕ) : ℝ) / n + ((t : ℕ) : ℝ) * ((j : ℕ) : ℝ) / n)),
      ← Fintype.sum_prod_type' (fun i j => b i j * cis (((s : ℕ) : ℝ) * ((i : ℕ) : ℝ) / n + ((t : ℕ) : ℝ) * ((j : ℕ) : ℝ) / n))]
    rw [show ∀ X Y Z : ℂ, (1 / ((n : ℂ) * n) * X) * n * ((1 / ((n : ℂ) * n) * Y) * n) * Z = 1 / ((n : ℂ) * n) * (X * Y) * Z by
      intro X Y Z; field_simp]
    rw [Finset.sum_mul_sum, Finset.mul_sum, Finset.sum_mul]
    refine Finset.sum_congr rfl fun x _ => ?_
    rw [Finset.mul_sum, Finset.sum_mul]
    refine Finset.sum_congr rfl fun y _ => ?_
    rw [neg_add, cis_add, cis_add, cis_add]
    ring
  simp_rw [e2]
  rw [← Fintype.sum_prod_type' (fun s t : Fin n => ∑ x : Fin n × Fin n, ∑ y : Fin n × Fin n, (1 / ((n : ℂ) * n)) * (a x.1 x.2 * b y.1 y.2) *
        ((cis (((s : ℕ) : ℝ) * ((x.1 : ℕ) : ℝ) / n) * cis (((s : ℕ) : ℝ) * ((y.1 : ℕ) : ℝ) / n) * cis (-(((p : ℕ) : ℝ) * ((s : ℕ) : ℝ) / n))) *
        (cis (((t : ℕ) : ℝ) * ((x.2 : ℕ) : ℝ) / n) * cis (((t : ℕ) : ℝ) * ((y.2 : ℕ) : ℝ) / n) * cis (-(((q : ℕ) : ℝ) * ((t : ℕ) : ℝ) / n)))))]
  rw [Finset.sum_comm, ← Fintype.sum_prod_type' (fun i j => a i j * b (subIdx n p i) (subIdx n q j))]
  refine Finset.sum_congr rfl fun x _ => ?_
  rw [Finset.sum_comm]
  have e3 : ∀ y : Fin n × Fin n, ∑ k : Fin n × Fin n, (1 / ((n : ℂ) * n)) * (a x.1 x.2 * b y.1 y.2) *
        ((cis (((k.1 : ℕ) : ℝ) * ((x.1 : ℕ) : ℝ) / n) * cis (((k.1 : ℕ) : ℝ) * ((y.1 : ℕ) : ℝ) / n) * cis (-(((p : ℕ) : ℝ) * ((k.1 : ℕ) : ℝ) / n))) *
        (cis (((k.2 : ℕ) : ℝ) * ((x.2 : ℕ) : ℝ) / n) * cis (((k.2 : ℕ) : ℝ) * ((y.2 : ℕ) : ℝ) / n) * cis (-(((q : ℕ) : ℝ) * ((k.2 : ℕ) : ℝ) / n)))) =
      if y = (subIdx n p x.1, subIdx n q x.2) then a x.1 x.2 * b y.1 y.2 else 0 := by
    intro y
    rw [← Finset.mul_sum, Fintype.sum_prod_type]
    simp only
    rw [← Finset.sum_mul_sum, sum_char n hn p x.1 y.1, sum_char n hn q x.2 y.2]
    by_cases h : y = (subIdx n p x.1, subIdx n q x.2)
    · rw [if_pos h, h]
      simp only [if_true]
      field_simp
    · rw [if_neg h]
      by_cases h1 : y.1 = subIdx n p x.1
      · rw [if_neg (fun h2 => h (Prod.ext h1 h2)), mul_zero, mul_zero]
      · rw [if_neg h1, zero_mul, mul_zero]
  rw [Finset.sum_congr rfl fun y _ => e3 y, Finset.sum_ite_eq' Finset.univ, if_pos (Finset.mem_univ _)]

theorem mod_val (n x : ℕ) : ∃ k : ℤ, ((x % n : ℕ) : ℤ) = x - n * k := by
  refine ⟨((x / n : ℕ) : ℤ), ?_⟩
  have h := Nat.div_add_mod x n
  have : ((x % n : ℕ) : ℤ) = (x : ℤ) - ((n * (x / n) : ℕ) : ℤ) := by omega
  rw [this]; push_cast; ring

theorem fin_eq_of_dvd {n : ℕ} (a b : Fin n) (k : ℤ) (h : (((a : ℕ) : ℤ)) - (b : ℕ) = n * k) : a = b := by
  have ha := a.isLt
  have hb := b.isLt
  apply Fin.ext
  have h1 : (n : ℤ) * k < n * 1 := by omega
  have h2 : (n : ℤ) * (-1) < n * k := by omega
  have hn : (0 : ℤ) < n := by omega
  have c1 := lt_of_mul_lt_mul_left h1 hn.le
  have c2 := lt_of_mul_lt_mul_left h2 hn.le
  obtain rfl : k = 0 := by omega
  omega

/-- `(p + n//2 - i) mod n`: the index that lies from `p` as the centre lies from `i`. -/
def cIdx (n : ℕ) (p i : Fin n) : Fin n := ⟨((p : ℕ) + n / 2 + n - (i : ℕ)) % n, Nat.mod_lt _ (Nat.lt_of_le_of_lt (Nat.zero_le _) i.isLt)⟩

theorem cIdx_val (n : ℕ) (p i : Fin n) : ∃ k : ℤ, ((cIdx n p i : ℕ) : ℤ) = (p : ℕ) + ((n / 2 : ℕ) : ℤ) - (i : ℕ) - n * k := by
  obtain ⟨k, hk⟩ := mod_val n ((p : ℕ) + n / 2 + n - (i : ℕ))
  have hi := i.isLt
  refine ⟨k - 1, ?_⟩
  unfold cIdx
  simp only
  rw [hk]
  have : (((p : ℕ) + n / 2 + n - (i : ℕ) : ℕ) : ℤ) = (p : ℕ) + ((n / 2 : ℕ) : ℤ) + n - (i : ℕ) := by omega
  rw [this]; ring

theorem cIdx_roll (n : ℕ) (p i : Fin n) :
    rollIdx n (n / 2) (subIdx n (rollIdx n (n - n / 2) p) i) = cIdx n p (rollIdx n (n / 2) i) := by
  obtain ⟨k1, h1⟩ := rollIdx_val n (n / 2) (subIdx n (rollIdx n (n - n / 2) p) i)
  obtain ⟨k2, h2⟩ := rollIdx_val n (n - n / 2) p
  obtain ⟨k3, h3⟩ := rollIdx_val n (n / 2) i
  obtain ⟨k4, h4⟩ := cIdx_val n p (rollIdx n (n / 2) i)
  obtain ⟨k5, h5⟩ : ∃ k : ℤ, ((subIdx n (rollIdx n (n - n / 2) p) i : ℕ) : ℤ) = ((rollIdx n (n - n / 2) p : ℕ) : ℤ) - (i : ℕ) - n * k := by
    obtain ⟨k, hk⟩ := mod_val n ((rollIdx n (n - n / 2) p : ℕ) + n - (i : ℕ))
    have hi := i.isLt
    refine ⟨k - 1, ?_⟩
    unfold subIdx
    simp only
    rw [hk, show (((rollIdx n (n - n / 2) p : ℕ) + n - (i : ℕ) : ℕ) : ℤ) = ((rollIdx n (n - n / 2) p : ℕ) : ℤ) + n - (i : ℕ) by omega]
    ring
  have hc : ((n - n / 2 : ℕ) : ℤ) = n - ((n / 2 : ℕ) : ℤ) := by omega
  refine fin_eq_of_dvd _ _ (1 - k1 - k2 - k3 + k4 - k5) ?_
  rw [h1, h5, h2, h4, h3, hc]
  ring

/-- The smoothed mask: every pixel is the weighted sum of the mask around it, the window taken about its centre, indices cyclic. -/
theorem smooth_val (n : ℕ) (hn : 0 < n) (w m : Fin n → Fin n → ℝ) (p q : Fin n) :
    (smoothMask ⟨n, n, w⟩ ⟨n, n, m⟩).val p q = ∑ i : Fin n, ∑ j : Fin n, w i j * m (cIdx n p i) (cIdx n q j) := by
  have h := fft_conv n hn (fun i j => ((w (rollIdx n (n / 2) i) (rollIdx n (n / 2) j) : ℝ) : ℂ))
    (fun i j => ((m (rollIdx n (n / 2) i) (rollIdx n (n / 2) j) : ℝ) : ℂ)) (rollIdx n (n - n / 2) p) (rollIdx n (n - n / 2) q)
  have e : (smoothMask ⟨n, n, w⟩ ⟨n, n, m⟩).val p q = Complex.re (∑ i : Fin n, ∑ j : Fin n,
      ((w (rollIdx n (n / 2) i) (rollIdx n (n / 2) j) : ℝ) : ℂ) *
      ((m (rollIdx n (n / 2) (subIdx n (rollIdx n (n - n / 2) p) i)) (rollIdx n (n / 2) (subIdx n (rollIdx n (n - n / 2) q) j)) : ℝ) : ℂ)) :=
    congrArg Complex.re h
  rw [e, Complex.re_sum]
  simp_rw [Complex.re_sum, ← Complex.ofReal_mul, Complex.ofReal_re, cIdx_roll]
  rw [sum_rollIdx n (n / 2) (fun i => ∑ j : Fin n, w i (rollIdx n (n / 2) j) * m (cIdx n p i) (cIdx n q (rollIdx n (n / 2) j)))]
  refine Finset.sum_congr rfl fun i _ => ?_
  exact sum_rollIdx n (n / 2) (fun j => w i j * m (cIdx n p i) (cIdx n q j))

/-! ### Specification -/

/-- The arguments that are accepted: no upsampling, no negative padding, and enough pixels for a cubic spline. -/
structure MaskArgs (a : Arr2 ℝ) (mag padFac : ℝ) : Prop where
  magPos : 0 < mag
  magLe : mag ≤ 1
  pad : 1 ≤ padFac
  enough : 3 < padFac * (max a.nr a.nc : ℕ)

/-- The pixels within `k / 2` pixels of the origin. -/
noncomputable def discOffsets (k : ℤ) : Finset (ℤ × ℤ) := ((Finset.Icc (-k) k) ×ˢ (Finset.Icc (-k) k)).filter fun d => 4 * (d.1 ^ 2 + d.2 ^ 2) ≤ k ^ 2

/-- The mean of `f` over the disc of diameter `k` about `(p, q)`. -/
noncomputable def discMean (k : ℤ) (f : ℤ → ℤ → ℝ) (p q : ℤ) : ℝ :=
  (∑ d ∈ discOffsets k, f (p - d.1) (q - d.2)) / (discOffsets k).card

/-- The mask, zero outside its array, at an offset from its centre pixel; mirrored left-right if asked. -/
def maskAt (a : Arr2 ℝ) (flipx : Bool) (p q : ℤ) : ℝ := (a.centered p (if flipx = true then -q else q)).getD 0

/-! ### The function, once its arguments are accepted -/

/-- The array built by the last lines of the function. -/
noncomputable def resampled (S : ClampSpline) (A : Arr2 ℝ) (N nOut : ℕ) (mag xo yo : ℝ) : Arr2 ℝ :=
  ⟨nOut + 1, nOut + 1, fun i j => if (i : ℕ) = 0 ∨ (j : ℕ) = 0 then 0 else
    S.eval (maskAxis N) (maskAxis N) A ((maskAxis nOut ((i : ℕ) - 1) - yo) * (1 / mag)) ((maskAxis nOut ((j : ℕ) - 1) - xo) * (1 / mag))⟩

/-- The padded, mirrored mask. -/
noncomputable def prepared (a : Arr2 ℝ) (N : ℕ) (flipx : Bool) : Fin N → Fin N → ℝ :=
  fun i j => (embed a N N 0).val i (if flipx = true then j.rev else j)

theorem prepared_at (a : Arr2 ℝ) (N : ℕ) (hN : N % 2 = 1) (flipx : Bool) (p q : ℤ) (h : Reaches N N p q) :
    (⟨N, N, prepared a N flipx⟩ : Arr2 ℝ).zext ((N : ℤ) / 2 + p) ((N : ℤ) / 2 + q) = maskAt a flipx p q := by
  unfold Reaches at h
  have hz : ∀ x y : ℤ, Reaches N N x y → (embed a N N 0).zext ((N : ℤ) / 2 + x) ((N : ℤ) / 2 + y) = (a.centered x y).getD 0 := by
    intro x y hxy
    have := embed_centered a N N 0 hxy
    unfold Arr2.centered at this
    unfold Arr2.zext
    rw [show ((embed a N N 0).nr : ℤ) = N from rfl, show ((embed a N N 0).nc : ℤ) = N from rfl] at this
    rw [this]; rfl
  cases flipx with
  | false =>
    have e : (⟨N, N, prepared a N false⟩ : Arr2 ℝ) = embed a N N 0 := by
      unfold prepared
      simp only [Bool.false_eq_true, if_false]
      rfl
    rw [e, hz p q h]
    rfl
  | true =>
    have e : (⟨N, N, prepared a N true⟩ : Arr2 ℝ) = (embed a N N 0).fliplr := by
      unfold prepared
      simp only [if_true]
      rfl
    rw [e, fliplr_zext]
    rw [show ((embed a N N 0).nc : ℤ) - 1 - ((N : ℤ) / 2 + q) = (N : ℤ) / 2 + (-q) by
      rw [show ((embed a N N 0).nc : ℤ) = N from rfl]; omega]
    rw [hz p (-q) (by unfold Reaches; omega)]
    rfl

theorem side_facts (x : ℝ) : ceilOdd x % 2 = 1 ∧ x ≤ (ceilOdd x : ℤ) ∧ (4 ≤ ceilOdd x ↔ 3 < x) := by
  obtain ⟨⟨h1, h2⟩, h3⟩ := C08_ceil_odd x
  refine ⟨h1, h2, fun h => ?_, fun h => ?_⟩
  · by_contra hc
    push Not at hc
    have := h3 (show (3 : ℤ) ∈ {n : ℤ | n % 2 = 1 ∧ x ≤ n} from ⟨by norm_num, by exact_mod_cast hc⟩)
    omega
  · have : (3 : ℝ) < (ceilOdd x : ℤ) := lt_of_lt_of_le h h2
    exact_mod_cast this

theorem rsd_ok (S : ClampSpline) (R : Rotate) (a : Arr2 ℝ) (rot mag xo yo padFac : ℝ) (flipx : Bool) (h : MaskArgs a mag padFac) (N : ℕ)
    (hN : (N : ℤ) = ceilOdd (padFac * (max a.nr a.nc : ℕ))) :
    rotateShiftDownsample S R a rot mag xo yo padFac flipx =
      .ok (resampled S (if rot = 0 then smoothMask (normWindow (discWindow N (1 / mag))) ⟨N, N, prepared a N flipx⟩
        else R.run (-rot) (smoothMask (normWindow (discWindow N (1 / mag))) ⟨N, N, prepared a N flipx⟩)) N
        (ceilOdd ((N : ℝ) * mag + 2 + 2 * max |xo| |yo|)).toNat mag xo yo) := by
  obtain ⟨h1, h2, h3⟩ := side_facts (padFac * (max a.nr a.nc : ℕ))
  have h4 := h3.mpr h.enough
  rw [← hN] at h4
  have hm : (if flipx = true then (embed a N N 0).fliplr else embed a N N 0) = ⟨N, N, prepared a N flipx⟩ := by
    cases flipx with
    | false => simp only [Bool.false_eq_true, if_false]; unfold prepared; simp only [Bool.false_eq_true, if_false]; rfl
    | true => simp only [if_true]; unfold prepared; simp only [if_true]; rfl
  unfold rotateShiftDownsample
  rw [if_neg (by push Not; exact ⟨h.magPos, h.magLe, h.pad⟩)]
  simp only
  rw [← hN, padCrop_eq a N N 0 (by omega) (by omega)]
  simp only [bind, Except.bind, Int.toNat_natCast]
  rw [hm]
  rw [if_neg (by simp only; omega)]
  rfl

theorem rsd_err (S : ClampSpline) (R : Rotate) (a : Arr2 ℝ) (rot mag xo yo padFac : ℝ) (flipx : Bool) :
    (mag ≤ 0 ∨ 1 < mag ∨ padFac < 1 → rotateShiftDownsample S R a rot mag xo yo padFac flipx = .error .typeError) ∧
    (0 < mag → mag ≤ 1 → 1 ≤ padFac → padFac * (max a.nr a.nc : ℕ) ≤ 3 →
      rotateShiftDownsample S R a rot mag xo yo padFac flipx = .error (.user 0)) := by
  refine ⟨fun h => ?_, fun g1 g2 g3 g4 => ?_⟩
  · unfold rotateShiftDownsample
    rw [if_pos h]
  · obtain ⟨h1, h2, h3⟩ := side_facts (padFac * (max a.nr a.nc : ℕ))
    have h0 : (0 : ℝ) ≤ padFac * (max a.nr a.nc : ℕ) := by positivity
    have hpos : 0 < ceilOdd (padFac * (max a.nr a.nc : ℕ)) := by
      have : (0 : ℝ) ≤ (ceilOdd (padFac * (max a.nr a.nc : ℕ)) : ℤ) := h0.trans h2
      have : 0 ≤ ceilOdd (padFac * (max a.nr a.nc : ℕ)) := by exact_mod_cast this
      omega
    have hlt : ¬ 4 ≤ ceilOdd (padFac * (max a.nr a.nc : ℕ)) := fun hc => by have := h3.mp hc; linarith
    unfold rotateShiftDownsample
    rw [if_neg (by push Not; exact ⟨g1, g2, g3⟩)]
    simp only
    rw [padCrop_eq a _ _ 0 hpos hpos]
    simp only [bind, Except.bind]
    rw [if_pos]
    have : (if flipx = true then (embed a (ceilOdd (padFac * (max a.nr a.nc : ℕ))).toNat (ceilOdd (padFac * (max a.nr a.nc : ℕ))).toNat 0).fliplr
      else embed a (ceilOdd (padFac * (max a.nr a.nc : ℕ))).toNat (ceilOdd (padFac * (max a.nr a.nc : ℕ))).toNat 0).nr =
        (ceilOdd (padFac * (max a.nr a.nc : ℕ))).toNat := by cases flipx <;> rfl
    rw [this]
    omega

/-! ### The property -/

/-- **C60.** The function returns exactly for the arguments described by `MaskArgs`. -/
theorem C60_accepts (S : ClampSpline) (R : Rotate) (a : Arr2 ℝ) (rot mag xo yo padFac : ℝ) (flipx : Bool) :
    (∃ o, rotateShiftDownsample S R a rot mag xo yo padFac flipx = .ok o) ↔ MaskArgs a mag padFac := by
  obtain ⟨e1, e2⟩ := rsd_err S R a rot mag xo yo padFac flipx
  constructor
  · rintro ⟨o, ho⟩
    refine ⟨?_, ?_, ?_, ?_⟩
    · by_contra hc; rw [e1 (Or.inl (not_lt.mp hc))] at ho; cases ho
    · by_contra hc; rw [e1 (Or.inr (Or.inl (not_le.mp hc)))] at ho; cases ho
    · by_contra hc; rw [e1 (Or.inr (Or.inr (not_le.mp hc)))] at ho; cases ho
    · by_contra hc
      by_cases hb : mag ≤ 0 ∨ 1 < mag ∨ padFac < 1
      · rw [e1 hb] at ho; cases ho
      · push Not at hb
        rw [e2 hb.1 hb.2.1 hb.2.2 (not_lt.mp hc)] at ho; cases ho
  · intro h
    obtain ⟨h1, h2, h3⟩ := side_facts (padFac * (max a.nr a.nc : ℕ))
    have h4 := h3.mpr h.enough
    exact ⟨_, rsd_ok S R a rot mag xo yo padFac flipx h (ceilOdd (padFac * (max a.nr a.nc : ℕ))).toNat (by omega)⟩

/-- **C60.** Arguments outside the documented range are refused with TypeError. -/
theorem C60_rejects (S : ClampSpline) (R : Rotate) (a : Arr2 ℝ) (rot mag xo yo padFac : ℝ) (flipx : Bool)
    (h : mag ≤ 0 ∨ 1 < mag ∨ padFac < 1) : rotateShiftDownsample S R a rot mag xo yo padFac flipx = .error .typeError :=
  (rsd_err S R a rot mag xo yo padFac flipx).1 h

/-- **C60.** The output is square and even-sized, and larger than the padded mask times the magnification plus twice the larger offset; its
first row and column are zero. -/
theorem C60_even_square (S : ClampSpline) (R : Rotate) (a : Arr2 ℝ) (rot mag xo yo padFac : ℝ) (flipx : Bool) (o : Arr2 ℝ)
    (ho : rotateShiftDownsample S R a rot mag xo yo padFac flipx = .ok o) :
    o.nr = o.nc ∧ o.nr % 2 = 0 ∧ padFac * (max a.nr a.nc : ℕ) * mag + 2 * max |xo| |yo| + 3 ≤ o.nr ∧
    ∀ k : ℕ, k < o.nr → o.px 0 k = some 0 ∧ o.px k 0 = some 0 := by
  have h := (C60_accepts S R a rot mag xo yo padFac flipx).mp ⟨o, ho⟩
  obtain ⟨h1, h2, h3⟩ := side_facts (padFac * (max a.nr a.nc : ℕ))
  have h4 := h3.mpr h.enough
  obtain ⟨N, hN⟩ := Int.eq_ofNat_of_zero_le (show 0 ≤ ceilOdd (padFac * (max a.nr a.nc : ℕ)) by omega)
  rw [rsd_ok S R a rot mag xo yo padFac flipx h N hN.symm] at ho
  obtain rfl := Except.ok.inj ho
  obtain ⟨g1, g2, -⟩ := side_facts ((N : ℝ) * mag + 2 + 2 * max |xo| |yo|)
  have hpos : (0 : ℝ) ≤ (N : ℝ) * mag + 2 + 2 * max |xo| |yo| := by
    have := h.magPos.le
    have : 0 ≤ max |xo| |yo| := le_max_of_le_left (abs_nonneg _)
    positivity
  obtain ⟨M, hM⟩ := Int.eq_ofNat_of_zero_le (show 0 ≤ ceilOdd ((N : ℝ) * mag + 2 + 2 * max |xo| |yo|) by
    have : (0 : ℝ) ≤ (ceilOdd ((N : ℝ) * mag + 2 + 2 * max |xo| |yo|) : ℤ) := hpos.trans g2
    exact_mod_cast this)
  rw [hM] at g1 g2
  rw [hM, Int.toNat_natCast]
  refine ⟨rfl, ?_, ?_, fun k hk => ?_⟩
  · show (M + 1) % 2 = 0
    omega
  · show _ ≤ ((M + 1 : ℕ) : ℝ)
    rw [hN] at h2
    push_cast at g2 h2 ⊢
    have := mul_le_mul_of_nonneg_right h2 h.magPos.le
    linarith
  · have hk' : k < M + 1 := hk
    constructor
    · have e := Arr2.px_of_inB (resampled S (if rot = 0 then smoothMask (normWindow (discWindow N (1 / mag))) ⟨N, N, prepared a N flipx⟩
        else R.run (-rot) (smoothMask (normWindow (discWindow N (1 / mag))) ⟨N, N, prepared a N flipx⟩)) N M mag xo yo) (i := 0) (j := (k : ℤ)) (by
          show (0 ≤ (0 : ℤ) ∧ (0 : ℤ) < ((M + 1 : ℕ) : ℤ)) ∧ (0 ≤ (k : ℤ) ∧ (k : ℤ) < ((M + 1 : ℕ) : ℤ))
          omega)
      rw [e]
      unfold resampled
      simp
    · have e := Arr2.px_of_inB (resampled S (if rot = 0 then smoothMask (normWindow (discWindow N (1 / mag))) ⟨N, N, prepared a N flipx⟩
        else R.run (-rot) (smoothMask (normWindow (discWindow N (1 / mag))) ⟨N, N, prepared a N flipx⟩)) N M mag xo yo) (i := (k : ℤ)) (j := 0) (by
          show (0 ≤ (k : ℤ) ∧ (k : ℤ) < ((M + 1 : ℕ) : ℤ)) ∧ (0 ≤ (0 : ℤ) ∧ (0 : ℤ) < ((M + 1 : ℕ) : ℤ))
          omega)
      rw [e]
      unfold resampled
      simp

/-! ### Whole-pixel resampling -/

theorem maskAxis_odd (n : ℕ) (hn : n % 2 = 1) (k : ℕ) : maskAxis n k = ((k : ℤ) - (n : ℤ) / 2 : ℤ) := by
  obtain ⟨c, rfl⟩ : ∃ c, n = 2 * c + 1 := ⟨n / 2, by omega⟩
  have : (((2 * c + 1 : ℕ) : ℤ) / 2) = c := by omega
  rw [this]
  unfold maskAxis
  push_cast
  ring

theorem maskAxis_strictMono (n : ℕ) : StrictMono (maskAxis n) := by
  intro a b h
  unfold maskAxis
  have : (a : ℝ) < b := by exact_mod_cast h
  linarith

theorem mem_disc (k : ℤ) (d : ℤ × ℤ) (hk : 0 ≤ k) : d ∈ discOffsets k ↔ 4 * (d.1 ^ 2 + d.2 ^ 2) ≤ k ^ 2 := by
  unfold discOffsets
  rw [Finset.mem_filter, Finset.mem_product, Finset.mem_Icc, Finset.mem_Icc]
  refine ⟨fun h => h.2, fun h => ⟨⟨⟨?_, ?_⟩, ⟨?_, ?_⟩⟩, h⟩⟩ <;> nlinarith [sq_nonneg d.1, sq_nonneg d.2]

theorem disc_half (k : ℤ) (d : ℤ × ℤ) (hk : 0 ≤ k) (h : d ∈ discOffsets k) : |d.1| ≤ k / 2 ∧ |d.2| ≤ k / 2 := by
  rw [mem_disc k d hk] at h
  have h1 : 2 * |d.1| ≤ k := by
    by_contra hc
    push Not at hc
    nlinarith [sq_nonneg d.2, sq_abs d.1, abs_nonneg d.1]
  have h2 : 2 * |d.2| ≤ k := by
    by_contra hc
    push Not at hc
    nlinarith [sq_nonneg d.1, sq_abs d.2, abs_nonneg d.2]
  omega

theorem sqrt_disc (k x y : ℤ) (hk : 0 ≤ k) : Real.sqrt ((x : ℝ) ^ 2 + (y : ℝ) ^ 2) ≤ (k : ℝ) / 2 ↔ 4 * (y ^ 2 + x ^ 2) ≤ k ^ 2 := by
  have hk' : (0 : ℝ) ≤ (k : ℝ) / 2 := by have : (0 : ℝ) ≤ k := by exact_mod_cast hk
                                         linarith
  rw [Real.sqrt_le_left hk']
  have : (4 * (y ^ 2 + x ^ 2) ≤ k ^ 2) ↔ ((4 : ℝ) * ((y : ℝ) ^ 2 + (x : ℝ) ^ 2) ≤ (k : ℝ) ^ 2) := by exact_mod_cast Iff.rfl
  rw [this]
  constructor <;> intro h <;> nlinarith

/-- Summing over the pixels of the window is summing over the disc. -/
theorem disc_sum (n : ℕ) (hn : n % 2 = 1) (k : ℤ) (hk : 0 ≤ k) (hkn : k / 2 ≤ (n : ℤ) / 2) (g : ℤ → ℤ → ℝ) :
    ∑ i : Fin n, ∑ j : Fin n, (discWindow n k).val i j * g ((i : ℕ) - (n : ℤ) / 2) ((j : ℕ) - (n : ℤ) / 2) = ∑ d ∈ discOffsets k, g d.1 d.2 := by
  classical
  have hv : ∀ i j : Fin n, (discWindow n k).val i j =
      if (((i : ℕ) : ℤ) - (n : ℤ) / 2, ((j : ℕ) : ℤ) - (n : ℤ) / 2) ∈ discOffsets k then 1 else 0 := by
    intro i j
    show (if Real.sqrt (maskAxis n j ^ 2 + maskAxis n i ^ 2) ≤ (k : ℝ) / 2 then (1 : ℝ) else 0) = _
    rw [maskAxis_odd n hn, maskAxis_odd n hn]
    have := (sqrt_disc k (((j : ℕ) : ℤ) - (n : ℤ) / 2) (((i : ℕ) : ℤ) - (n : ℤ) / 2) hk).trans
      (mem_disc k (((i : ℕ) : ℤ) - (n : ℤ) / 2, ((j : ℕ) : ℤ) - (n : ℤ) / 2) hk).symm
    by_cases hc : (((i : ℕ) : ℤ) - (n : ℤ) / 2, ((j : ℕ) : ℤ) - (n : ℤ) / 2) ∈ discOffsets k
    · rw [if_pos hc, if_pos (this.mpr hc)]
    · rw [if_neg hc, if_neg (fun h => hc (this.mp h))]
  simp_rw [hv]
  rw [← Fintype.sum_prod_type' (fun i j : Fin n => (if (((i : ℕ) : ℤ) - (n : ℤ) / 2, ((j : ℕ) : ℤ) - (n : ℤ) / 2) ∈ discOffsets k then (1 : ℝ) else 0) *
    g ((i : ℕ) - (n : ℤ) / 2) ((j : ℕ) - (n : ℤ) / 2))]
  simp_rw [ite_mul, one_mul, zero_mul]
  rw [← Finset.sum_filter]
  refine Finset.sum_bij (fun (x : Fin n × Fin n) _ => (((x.1 : ℕ) : ℤ) - (n : ℤ) / 2, ((x.2 : ℕ) : ℤ) - (n : ℤ) / 2)) ?_ ?_ ?_ ?_
  · intro x hx
    exact (Finset.mem_filter.mp hx).2
  · intro x _ y _ h
    simp only [Prod.mk.injEq] at h
    refine Prod.ext (Fin.ext ?_) (Fin.ext ?_) <;> omega
  · intro d hd
    obtain ⟨h1, h2⟩ := disc_half k d hk hd
    rw [abs_le] at h1 h2
    have e : (((((n : ℤ) / 2 + d.1).toNat : ℕ) : ℤ) - (n : ℤ) / 2, ((((n : ℤ) / 2 + d.2).toNat : ℕ) : ℤ) - (n : ℤ) / 2) = d := by
      refine Prod.ext ?_ ?_ <;> simp only <;> omega
    refine ⟨(⟨((n : ℤ) / 2 + d.1).toNat, by omega⟩, ⟨((n : ℤ) / 2 + d.2).toNat, by omega⟩), ?_, e⟩
    rw [Finset.mem_filter]
    refine ⟨Finset.mem_univ _, ?_⟩
    simp only
    rw [e]
    exact hd
  · intro x _
    rfl

theorem cIdx_at (n : ℕ) (_hn : n % 2 = 1) (p i : Fin n) (h0 : 0 ≤ ((p : ℕ) : ℤ) - (((i : ℕ) : ℤ) - (n : ℤ) / 2))
    (h1 : ((p : ℕ) : ℤ) - (((i : ℕ) : ℤ) - (n : ℤ) / 2) < n) : ((cIdx n p i : ℕ) : ℤ) = (p : ℕ) - (((i : ℕ) : ℤ) - (n : ℤ) / 2) := by
  obtain ⟨k, hk⟩ := cIdx_val n p i
  have hp := p.isLt
  have hi := i.isLt
  have : (cIdx n p i) = (⟨(((p : ℕ) : ℤ) - (((i : ℕ) : ℤ) - (n : ℤ) / 2)).toNat, by omega⟩ : Fin n) := by
    refine fin_eq_of_dvd _ _ (-k) ?_
    simp only
    rw [hk, Int.toNat_of_nonneg h0]
    push_cast
    ring
  rw [this]
  simp only
  omega

/-- Away from the border the smoothed mask is the mean over the disc. -/
theorem smooth_disc (n : ℕ) (hn : n % 2 = 1) (k : ℤ) (hk : 0 ≤ k) (f : Fin n → Fin n → ℝ) (p q : ℤ) (hp : |p| + k / 2 ≤ (n : ℤ) / 2)
    (hq : |q| + k / 2 ≤ (n : ℤ) / 2) :
    (smoothMask (normWindow (discWindow n k)) ⟨n, n, f⟩).zext ((n : ℤ) / 2 + p) ((n : ℤ) / 2 + q) =
      discMean k (fun x y => (⟨n, n, f⟩ : Arr2 ℝ).zext ((n : ℤ) / 2 + x) ((n : ℤ) / 2 + y)) p q := by
  have hk2 : 0 ≤ k / 2 := by omega
  obtain ⟨p1, p2⟩ := abs_le.mp (show |p| ≤ (n : ℤ) / 2 - k / 2 by omega)
  obtain ⟨q1, q2⟩ := abs_le.mp (show |q| ≤ (n : ℤ) / 2 - k / 2 by omega)
  have hT : ∑ i : Fin n, ∑ j : Fin n, (discWindow n k).val i j = ((discOffsets k).card : ℝ) := by
    have := disc_sum n hn k hk (by omega) (fun _ _ => 1)
    simpa using this
  have hz : (smoothMask (normWindow (discWindow n k)) ⟨n, n, f⟩).zext ((n : ℤ) / 2 + p) ((n : ℤ) / 2 + q) =
      (smoothMask ⟨n, n, fun i j => (discWindow n k).val i j / ∑ i : Fin n, ∑ j : Fin n, (discWindow n k).val i j⟩ ⟨n, n, f⟩).val
        (⟨((n : ℤ) / 2 + p).toNat, by omega⟩ : Fin n) (⟨((n : ℤ) / 2 + q).toNat, by omega⟩ : Fin n) := by
    refine (zext_in (a := smoothMask (normWindow (discWindow n k)) ⟨n, n, f⟩) (i := (n : ℤ) / 2 + p) (j := (n : ℤ) / 2 + q) ?_).trans rfl
    show (0 ≤ (n : ℤ) / 2 + p ∧ (n : ℤ) / 2 + p < (n : ℤ)) ∧ (0 ≤ (n : ℤ) / 2 + q ∧ (n : ℤ) / 2 + q < (n : ℤ))
    omega
  rw [hz, smooth_val n (by omega), hT]
  unfold discMean
  rw [← disc_sum n hn k hk (by omega) (fun x y => (⟨n, n, f⟩ : Arr2 ℝ).zext ((n : ℤ) / 2 + (p - x)) ((n : ℤ) / 2 + (q - y))), Finset.sum_div]
  refine Finset.sum_congr rfl fun i _ => ?_
  rw [Finset.sum_div]
  refine Finset.sum_congr rfl fun j _ => ?_
  rw [div_mul_eq_mul_div]
  by_cases hw : (((i : ℕ) : ℤ) - (n : ℤ) / 2, ((j : ℕ) : ℤ) - (n : ℤ) / 2) ∈ discOffsets k
  · congr 2
    obtain ⟨h1, h2⟩ := disc_half k _ hk hw
    rw [abs_le] at h1 h2
    simp only at h1 h2
    have e1 := cIdx_at n hn ⟨((n : ℤ) / 2 + p).toNat, by omega⟩ i (by simp only; omega) (by simp only; omega)
    have e2 := cIdx_at n hn ⟨((n : ℤ) / 2 + q).toNat, by omega⟩ j (by simp only; omega) (by simp only; omega)
    simp only at e1 e2
    rw [Int.toNat_of_nonneg (by omega)] at e1 e2
    have e := Arr2.zext_val (⟨n, n, f⟩ : Arr2 ℝ) (cIdx n ⟨((n : ℤ) / 2 + p).toNat, by omega⟩ i) (cIdx n ⟨((n : ℤ) / 2 + q).toNat, by omega⟩ j)
    rw [e1, e2] at e
    rw [show (n : ℤ) / 2 + (p - (((i : ℕ) : ℤ) - (n : ℤ) / 2)) = (n : ℤ) / 2 + p - (((i : ℕ) : ℤ) - (n : ℤ) / 2) by ring,
      show (n : ℤ) / 2 + (q - (((j : ℕ) : ℤ) - (n : ℤ) / 2)) = (n : ℤ) / 2 + q - (((j : ℕ) : ℤ) - (n : ℤ) / 2) by ring, e]
  · have : (discWindow n k).val i j = 0 := by
      show (if Real.sqrt (maskAxis n j ^ 2 + maskAxis n i ^ 2) ≤ (k : ℝ) / 2 then (1 : ℝ) else 0) = 0
      rw [maskAxis_odd n hn, maskAxis_odd n hn, if_neg]
      rw [sqrt_disc k _ _ hk]
      exact fun h => hw ((mem_disc k _ hk).mpr h)
    rw [this, zero_mul, zero_mul]

theorem resampled_px (S : ClampSpline) (A : Arr2 ℝ) (N nOut : ℕ) (hO : nOut % 2 = 1) (mag xo yo : ℝ) (u v : ℤ) (h : Reaches nOut nOut u v) :
    (resampled S A N nOut mag xo yo).centered u v = some (S.eval (maskAxis N) (maskAxis N) A (((u : ℝ) - yo) * (1 / mag)) (((v : ℝ) - xo) * (1 / mag))) := by
  unfold Reaches at h
  unfold Arr2.centered
  have hc : ((nOut + 1 : ℕ) : ℤ) / 2 = (nOut : ℤ) / 2 + 1 := by omega
  have e := Arr2.px_of_inB (resampled S A N nOut mag xo yo) (i := ((nOut + 1 : ℕ) : ℤ) / 2 + u) (j := ((nOut + 1 : ℕ) : ℤ) / 2 + v) (by
    show (0 ≤ ((nOut + 1 : ℕ) : ℤ) / 2 + u ∧ ((nOut + 1 : ℕ) : ℤ) / 2 + u < ((nOut + 1 : ℕ) : ℤ)) ∧
      (0 ≤ ((nOut + 1 : ℕ) : ℤ) / 2 + v ∧ ((nOut + 1 : ℕ) : ℤ) / 2 + v < ((nOut + 1 : ℕ) : ℤ))
    omega)
  refine e.trans ?_
  congr 1
  have hu : (((nOut + 1 : ℕ) : ℤ) / 2 + u).toNat - 1 = ((nOut : ℤ) / 2 + u).toNat := by omega
  have hv : (((nOut + 1 : ℕ) : ℤ) / 2 + v).toNat - 1 = ((nOut : ℤ) / 2 + v).toNat := by omega
  show (if (((nOut + 1 : ℕ) : ℤ) / 2 + u).toNat = 0 ∨ (((nOut + 1 : ℕ) : ℤ) / 2 + v).toNat = 0 then (0 : ℝ) else _) = _
  rw [if_neg (by omega)]
  rw [hu, hv, maskAxis_odd nOut hO, maskAxis_odd nOut hO, Int.toNat_of_nonneg (by omega), Int.toNat_of_nonneg (by omega),
    show (nOut : ℤ) / 2 + u - (nOut : ℤ) / 2 = u by ring, show (nOut : ℤ) / 2 + v - (nOut : ℤ) / 2 = v by ring]

/-- **C60.** Downsampling by a whole factor `k` with whole offsets and no rotation: the output pixel at offset `(u, v)` from the centre is the
mean of the mask over the disc of diameter `k` (one output pixel) about `k` times that offset less the shift, wherever the disc stays inside
the padded array (of odd side, the least one not below `padFac` times the larger side of the mask). -/
theorem C60_downsample (S : ClampSpline) (R : Rotate) (a : Arr2 ℝ) (k : ℕ) (hk : 0 < k) (xo yo : ℤ) (padFac : ℝ) (flipx : Bool) (N : ℤ)
    (hN : IsLeast {n : ℤ | n % 2 = 1 ∧ padFac * (max a.nr a.nc : ℕ) ≤ n} N) (o : Arr2 ℝ)
    (ho : rotateShiftDownsample S R a 0 (1 / k) xo yo padFac flipx = .ok o) (u v : ℤ)
    (hu : |(k : ℤ) * (u - yo)| + (k : ℤ) / 2 ≤ N / 2) (hv : |(k : ℤ) * (v - xo)| + (k : ℤ) / 2 ≤ N / 2) :
    o.centered u v = some (discMean k (maskAt a flipx) (k * (u - yo)) (k * (v - xo))) := by
  have hkR : (0 : ℝ) < k := by exact_mod_cast hk
  have h := (C60_accepts S R a 0 (1 / k) xo yo padFac flipx).mp ⟨o, ho⟩
  obtain ⟨h1, h2, h3⟩ := side_facts (padFac * (max a.nr a.nc : ℕ))
  have h4 := h3.mpr h.enough
  obtain rfl : N = ceilOdd (padFac * (max a.nr a.nc : ℕ)) := hN.unique (C08_ceil_odd _)
  obtain ⟨N, hN'⟩ := Int.eq_ofNat_of_zero_le (show 0 ≤ ceilOdd (padFac * (max a.nr a.nc : ℕ)) by omega)
  rw [hN'] at hu hv h1 h4
  have hodd : N % 2 = 1 := by omega
  rw [rsd_ok S R a 0 (1 / k) xo yo padFac flipx h N hN'.symm, if_pos rfl] at ho
  obtain rfl := Except.ok.inj ho
  obtain ⟨g1, g2, -⟩ := side_facts ((N : ℝ) * (1 / k) + 2 + 2 * max |(xo : ℝ)| |(yo : ℝ)|)
  obtain ⟨M, hM⟩ := Int.eq_ofNat_of_zero_le (show 0 ≤ ceilOdd ((N : ℝ) * (1 / k) + 2 + 2 * max |(xo : ℝ)| |(yo : ℝ)|) by
    have : 0 ≤ max |(xo : ℝ)| |(yo : ℝ)| := le_max_of_le_left (abs_nonneg _)
    have : (0 : ℝ) ≤ (ceilOdd ((N : ℝ) * (1 / k) + 2 + 2 * max |(xo : ℝ)| |(yo : ℝ)|) : ℤ) := le_trans (by positivity) g2
    exact_mod_cast this)
  rw [hM] at g1 g2 ⊢
  rw [Int.toNat_natCast]
  have hMo : M % 2 = 1 := by omega
  -- the pixel lies inside the output
  have reach : ∀ (w off : ℤ), |(k : ℤ) * (w - off)| + (k : ℤ) / 2 ≤ (N : ℤ) / 2 → |(off : ℝ)| ≤ max |(xo : ℝ)| |(yo : ℝ)| →
      0 ≤ (M : ℤ) / 2 + w ∧ (M : ℤ) / 2 + w < M := by
    intro w off hw hoff
    have hb : |(w : ℝ)| ≤ M / 2 := by
      have e1 : (k : ℝ) * |(w : ℝ) - off| ≤ N / 2 := by
        have : ((|(k : ℤ) * (w - off)| : ℤ) : ℝ) ≤ (((N : ℤ) / 2 : ℤ) : ℝ) := by
          exact_mod_cast (by have : 0 ≤ (k : ℤ) / 2 := by omega
                             omega : |(k : ℤ) * (w - off)| ≤ (N : ℤ) / 2)
        push_cast at this
        rw [abs_mul, abs_of_pos hkR] at this
        refine this.trans ?_
        have h5 : (((N : ℤ) / 2 : ℤ) : ℝ) ≤ N / 2 := by
          have : (2 : ℝ) * (((N : ℤ) / 2 : ℤ) : ℝ) ≤ N := by exact_mod_cast (by omega : 2 * ((N : ℤ) / 2) ≤ N)
          linarith
        exact_mod_cast h5
      have e2 : |(w : ℝ) - off| ≤ N * (1 / k) / 2 := by
        rw [mul_one_div, div_div, mul_comm (k : ℝ) 2, ← div_div, le_div_iff₀ hkR]
        linarith
      have e3 : |(w : ℝ)| ≤ |(w : ℝ) - off| + |(off : ℝ)| := by
        have := abs_add_le ((w : ℝ) - off) off
        rwa [sub_add_cancel] at this
      push_cast at g2
      linarith
    have h2' : 2 * |w| ≤ (M : ℤ) := by
      have : (2 : ℝ) * |(w : ℝ)| ≤ M := by linarith
      exact_mod_cast this
    obtain ⟨b1, b2⟩ := abs_le.mp (show |w| ≤ (M : ℤ) / 2 by omega)
    omega
  have hR : Reaches M M u v := ⟨reach u yo hu (le_max_right _ _), reach v xo hv (le_max_left _ _)⟩
  rw [resampled_px S _ N M hMo (1 / k) xo yo u v hR]
  congr 1
  have hk2 : 0 ≤ (k : ℤ) / 2 := by omega
  obtain ⟨u1, u2⟩ := abs_le.mp (show |(k : ℤ) * (u - yo)| ≤ (N : ℤ) / 2 by omega)
  obtain ⟨v1, v2⟩ := abs_le.mp (show |(k : ℤ) * (v - xo)| ≤ (N : ℤ) / 2 by omega)
  have coord : ∀ w off : ℤ, -((N : ℤ) / 2) ≤ (k : ℤ) * (w - off) → ((w : ℝ) - off) * (1 / (1 / k)) = maskAxis N ((N : ℤ) / 2 + k * (w - off)).toNat := by
    intro w off hw
    rw [maskAxis_odd N hodd, Int.toNat_of_nonneg (by omega), one_div_one_div]
    push_cast
    ring
  rw [coord u yo u1, coord v xo v1]
  have hint := S.interpolates (maskAxis N) (maskAxis N) (smoothMask (normWindow (discWindow N (1 / (1 / k)))) ⟨N, N, prepared a N flipx⟩)
    (⟨((N : ℤ) / 2 + k * (u - yo)).toNat, by omega⟩ : Fin N) (⟨((N : ℤ) / 2 + k * (v - xo)).toNat, by omega⟩ : Fin N)
    (maskAxis_strictMono N) (maskAxis_strictMono N)
  refine hint.trans ?_
  have hsm := smooth_disc N hodd k (by omega) (prepared a N flipx) (k * (u - yo)) (k * (v - xo)) hu hv
  rw [one_div_one_div]
  have hz := zext_in (a := smoothMask (normWindow (discWindow N k)) ⟨N, N, prepared a N flipx⟩) (i := (N : ℤ) / 2 + k * (u - yo))
    (j := (N : ℤ) / 2 + k * (v - xo)) (by
      show (0 ≤ (N : ℤ) / 2 + k * (u - yo) ∧ (N : ℤ) / 2 + k * (u - yo) < (N : ℤ)) ∧ (0 ≤ (N : ℤ) / 2 + k * (v - xo) ∧ (N : ℤ) / 2 + k * (v - xo) < (N : ℤ))
      omega)
  refine hz.symm.trans (Eq.trans ?_ (hsm.trans ?_))
  · push_cast; rfl
  · unfold discMean
    congr 1
    refine Finset.sum_congr rfl fun d hd => ?_
    obtain ⟨d1, d2⟩ := disc_half k d (by omega) hd
    refine prepared_at a N hodd flipx _ _ ?_
    rw [abs_le] at d1 d2
    have u3 := abs_le.mp (show |(k : ℤ) * (u - yo)| ≤ (N : ℤ) / 2 - (k : ℤ) / 2 by omega)
    have v3 := abs_le.mp (show |(k : ℤ) * (v - xo)| ≤ (N : ℤ) / 2 - (k : ℤ) / 2 by omega)
    unfold Reaches
    omega

theorem disc_one : discOffsets 1 = {(0, 0)} := by
  ext ⟨x, y⟩
  rw [mem_disc 1 _ (by norm_num), Finset.mem_singleton, Prod.mk.injEq]
  simp only
  constructor
  · intro h
    constructor <;> nlinarith [sq_nonneg x, sq_nonneg y]
  · rintro ⟨rfl, rfl⟩
    norm_num

theorem discMean_one (f : ℤ → ℤ → ℝ) (p q : ℤ) : discMean 1 f p q = f p q := by
  unfold discMean
  rw [disc_one]
  simp

theorem maskAt_outside (a : Arr2 ℝ) (flipx : Bool) (p q : ℤ) (h : (max a.nr a.nc : ℤ) / 2 < |p| ∨ (max a.nr a.nc : ℤ) / 2 < |q|) :
    maskAt a flipx p q = 0 := by
  unfold maskAt
  rw [centered_eq_none, Option.getD_none]
  unfold Reaches
  intro hc
  have hr : (a.nr : ℤ) ≤ max (a.nr : ℤ) a.nc := le_max_left _ _
  have hcc : (a.nc : ℤ) ≤ max (a.nr : ℤ) a.nc := le_max_right _ _
  rcases h with h | h
  · rcases lt_abs.mp h with h' | h' <;> omega
  · have hq : ∃ z : ℤ, (if flipx = true then -q else q) = z ∧ |z| = |q| := by
      cases flipx
      · exact ⟨q, by simp, rfl⟩
      · exact ⟨-q, by simp, abs_neg q⟩
    obtain ⟨z, hz, hz'⟩ := hq
    rw [hz] at hc
    rw [← hz'] at h
    rcases lt_abs.mp h with h' | h' <;> omega

/-- The nearest whole position of the padded array. -/
theorem clamp_axis (N : ℕ) (hodd : N % 2 = 1) (z : ℤ) :
    clampTo (maskAxis N 0) (maskAxis N (N - 1)) z = maskAxis N ((N : ℤ) / 2 + max (-((N : ℤ) / 2)) (min ((N : ℤ) / 2) z)).toNat := by
  have hb : -((N : ℤ) / 2) ≤ max (-((N : ℤ) / 2)) (min ((N : ℤ) / 2) z) := le_max_left _ _
  rw [maskAxis_odd N hodd, maskAxis_odd N hodd, maskAxis_odd N hodd, Int.toNat_of_nonneg (by omega)]
  unfold clampTo
  rw [show ((0 : ℕ) : ℤ) - (N : ℤ) / 2 = -((N : ℤ) / 2) by simp, show ((N - 1 : ℕ) : ℤ) - (N : ℤ) / 2 = (N : ℤ) / 2 by omega,
    show (N : ℤ) / 2 + max (-((N : ℤ) / 2)) (min ((N : ℤ) / 2) z) - (N : ℤ) / 2 = max (-((N : ℤ) / 2)) (min ((N : ℤ) / 2) z) by ring]
  push_cast
  rfl

/-- **C60.** At full size, without rotation and with whole offsets, the output is the mask itself, mirrored if asked and shifted by exactly the
offsets, over the whole output array; nothing is lost and nothing is added, provided the padding leaves a margin of zeros. -/
theorem C60_shift (S : ClampSpline) (R : Rotate) (a : Arr2 ℝ) (xo yo : ℤ) (padFac : ℝ) (flipx : Bool)
    (hmargin : ((max a.nr a.nc : ℕ) : ℝ) + 2 ≤ padFac * (max a.nr a.nc : ℕ)) (o : Arr2 ℝ)
    (ho : rotateShiftDownsample S R a 0 1 xo yo padFac flipx = .ok o) (u v : ℤ) (hR : Reaches o.nr o.nc u v) :
    o.centered u v = some (maskAt a flipx (u - yo) (v - xo)) := by
  have h := (C60_accepts S R a 0 1 xo yo padFac flipx).mp ⟨o, ho⟩
  obtain ⟨h1, h2, h3⟩ := side_facts (padFac * (max a.nr a.nc : ℕ))
  have h4 := h3.mpr h.enough
  obtain ⟨N, hN'⟩ := Int.eq_ofNat_of_zero_le (show 0 ≤ ceilOdd (padFac * (max a.nr a.nc : ℕ)) by omega)
  rw [hN'] at h1 h2 h4
  have hodd : N % 2 = 1 := by omega
  have hNm : (max a.nr a.nc : ℤ) + 2 ≤ N := by
    have : ((max a.nr a.nc : ℕ) : ℝ) + 2 ≤ ((N : ℤ) : ℝ) := hmargin.trans h2
    exact_mod_cast this
  rw [rsd_ok S R a 0 1 xo yo padFac flipx h N hN'.symm, if_pos rfl] at ho
  obtain rfl := Except.ok.inj ho
  obtain ⟨g1, g2, -⟩ := side_facts ((N : ℝ) * 1 + 2 + 2 * max |(xo : ℝ)| |(yo : ℝ)|)
  obtain ⟨M, hM⟩ := Int.eq_ofNat_of_zero_le (show 0 ≤ ceilOdd ((N : ℝ) * 1 + 2 + 2 * max |(xo : ℝ)| |(yo : ℝ)|) by
    have : 0 ≤ max |(xo : ℝ)| |(yo : ℝ)| := le_max_of_le_left (abs_nonneg _)
    have : (0 : ℝ) ≤ (ceilOdd ((N : ℝ) * 1 + 2 + 2 * max |(xo : ℝ)| |(yo : ℝ)|) : ℤ) := le_trans (by positivity) g2
    exact_mod_cast this)
  rw [hM] at g1 g2 hR ⊢
  rw [Int.toNat_natCast] at hR ⊢
  have hMo : M % 2 = 1 := by omega
  have hR' : (0 ≤ ((M + 1 : ℕ) : ℤ) / 2 + u ∧ ((M + 1 : ℕ) : ℤ) / 2 + u < ((M + 1 : ℕ) : ℤ)) ∧
      (0 ≤ ((M + 1 : ℕ) : ℤ) / 2 + v ∧ ((M + 1 : ℕ) : ℤ) / 2 + v < ((M + 1 : ℕ) : ℤ)) := hR
  have hbig : ∀ off : ℤ, |(off : ℝ)| ≤ max |(xo : ℝ)| |(yo : ℝ)| → (N : ℤ) + 2 + 2 * |off| ≤ M := by
    intro off hoff
    have : (N : ℝ) + 2 + 2 * |(off : ℝ)| ≤ M := by push_cast at g2; linarith
    exact_mod_cast this
  have hby := hbig yo (le_max_right _ _)
  have hbx := hbig xo (le_max_left _ _)
  have hy1 := le_abs_self yo
  have hy2 := neg_abs_le yo
  have hx1 := le_abs_self xo
  have hx2 := neg_abs_le xo
  by_cases hin : Reaches M M u v
  · rw [resampled_px S _ N M hMo 1 xo yo u v hin]
    congr 1
    rw [S.clamps, show ((u : ℝ) - yo) * (1 / 1) = ((u - yo : ℤ) : ℝ) by push_cast; ring,
      show ((v : ℝ) - xo) * (1 / 1) = ((v - xo : ℤ) : ℝ) by push_cast; ring]
    have c1 := clamp_axis N hodd (u - yo)
    have c2 := clamp_axis N hodd (v - xo)
    have e : S.eval (maskAxis N) (maskAxis N) (smoothMask (normWindow (discWindow N (1 / 1))) ⟨N, N, prepared a N flipx⟩)
        (clampTo (maskAxis N 0) (maskAxis N (N - 1)) ((u - yo : ℤ) : ℝ)) (clampTo (maskAxis N 0) (maskAxis N (N - 1)) ((v - xo : ℤ) : ℝ)) =
        maskAt a flipx (max (-((N : ℤ) / 2)) (min ((N : ℤ) / 2) (u - yo))) (max (-((N : ℤ) / 2)) (min ((N : ℤ) / 2) (v - xo))) := by
      rw [c1, c2]
      generalize hp : max (-((N : ℤ) / 2)) (min ((N : ℤ) / 2) (u - yo)) = p
      generalize hq : max (-((N : ℤ) / 2)) (min ((N : ℤ) / 2) (v - xo)) = q
      have hp1 : -((N : ℤ) / 2) ≤ p ∧ p ≤ (N : ℤ) / 2 := by omega
      have hq1 : -((N : ℤ) / 2) ≤ q ∧ q ≤ (N : ℤ) / 2 := by omega
      have hint := S.interpolates (maskAxis N) (maskAxis N) (smoothMask (normWindow (discWindow N (1 / 1))) ⟨N, N, prepared a N flipx⟩)
        (⟨((N : ℤ) / 2 + p).toNat, by omega⟩ : Fin N) (⟨((N : ℤ) / 2 + q).toNat, by omega⟩ : Fin N)
        (maskAxis_strictMono N) (maskAxis_strictMono N)
      refine hint.trans ?_
      have hsm := smooth_disc N hodd 1 (by omega) (prepared a N flipx) p q (by have := abs_le.mpr hp1; omega) (by have := abs_le.mpr hq1; omega)
      rw [discMean_one, prepared_at a N hodd flipx p q (by unfold Reaches; omega)] at hsm
      have hz := zext_in (a := smoothMask (normWindow (discWindow N (1 / 1))) ⟨N, N, prepared a N flipx⟩) (i := (N : ℤ) / 2 + p)
        (j := (N : ℤ) / 2 + q) (by
          show (0 ≤ (N : ℤ) / 2 + p ∧ (N : ℤ) / 2 + p < (N : ℤ)) ∧ (0 ≤ (N : ℤ) / 2 + q ∧ (N : ℤ) / 2 + q < (N : ℤ))
          omega)
      refine hz.symm.trans (Eq.trans ?_ hsm)
      rw [div_one, Int.cast_one]
    refine Eq.trans e ?_
    by_cases hc : |u - yo| ≤ (N : ℤ) / 2 ∧ |v - xo| ≤ (N : ℤ) / 2
    · obtain ⟨a1, a2⟩ := abs_le.mp hc.1
      obtain ⟨b1, b2⟩ := abs_le.mp hc.2
      rw [min_eq_right a2, max_eq_right a1, min_eq_right b2, max_eq_right b1]
    · have hcl : ∀ z : ℤ, (N : ℤ) / 2 < |z| → |max (-((N : ℤ) / 2)) (min ((N : ℤ) / 2) z)| = (N : ℤ) / 2 := by
        intro z hz
        rcases lt_abs.mp hz with h' | h'
        · rw [min_eq_left h'.le, max_eq_right (by omega), abs_of_nonneg (by omega)]
        · rw [min_eq_right (by omega), max_eq_left (by omega), abs_neg, abs_of_nonneg (by omega)]
      rw [maskAt_outside a flipx (u - yo) (v - xo) (by omega)]
      rw [not_and_or, not_le, not_le] at hc
      refine maskAt_outside a flipx _ _ ?_
      rcases hc with hc | hc
      · left; rw [hcl _ hc]; omega
      · right; rw [hcl _ hc]; omega
  · have hedge : u = -(((M + 1 : ℕ) : ℤ) / 2) ∨ v = -(((M + 1 : ℕ) : ℤ) / 2) := by
      unfold Reaches at hin
      omega
    rw [maskAt_outside a flipx (u - yo) (v - xo) (by
      rcases hedge with h | h
      · left; have := neg_abs_le (u - yo); omega
      · right; have := neg_abs_le (v - xo); omega)]
    have e := Arr2.px_of_inB (resampled S (smoothMask (normWindow (discWindow N (1 / 1))) ⟨N, N, prepared a N flipx⟩) N M 1 xo yo)
      (i := ((M + 1 : ℕ) : ℤ) / 2 + u) (j := ((M + 1 : ℕ) : ℤ) / 2 + v) hR'
    refine Eq.trans e ?_
    congr 1
    show (if (((M + 1 : ℕ) : ℤ) / 2 + u).toNat = 0 ∨ (((M + 1 : ℕ) : ℤ) / 2 + v).toNat = 0 then (0 : ℝ) else _) = _
    rw [if_pos (by omega)]

/-! ### Linearity -/

theorem Combines.smooth {a b : ℝ} (n : ℕ) (hn : 0 < n) (w f g : Fin n → Fin n → ℝ) :
    Combines a b (smoothMask ⟨n, n, w⟩ ⟨n, n, fun i j => a * f i j + b * g i j⟩) (smoothMask ⟨n, n, w⟩ ⟨n, n, f⟩) (smoothMask ⟨n, n, w⟩ ⟨n, n, g⟩) := by
  have : smoothMask ⟨n, n, w⟩ ⟨n, n, fun i j => a * f i j + b * g i j⟩ =
      ⟨n, n, fun (p q : Fin n) => a * (smoothMask ⟨n, n, w⟩ ⟨n, n, f⟩).val p q + b * (smoothMask ⟨n, n, w⟩ ⟨n, n, g⟩).val p q⟩ := by
    have e : smoothMask ⟨n, n, w⟩ ⟨n, n, fun i j => a * f i j + b * g i j⟩ =
      ⟨n, n, fun (p q : Fin n) => (smoothMask ⟨n, n, w⟩ ⟨n, n, fun i j => a * f i j + b * g i j⟩).val p q⟩ := rfl
    rw [e]
    congr 1
    funext p q
    rw [smooth_val n hn, smooth_val n hn, smooth_val n hn]
    simp only [Finset.mul_sum, ← Finset.sum_add_distrib]
    refine Finset.sum_congr rfl fun i _ => Finset.sum_congr rfl fun j _ => ?_
    ring
  rw [this]
  exact combines_mk a b n n (smoothMask ⟨n, n, w⟩ ⟨n, n, f⟩).val (smoothMask ⟨n, n, w⟩ ⟨n, n, g⟩).val

/-- **C60.** For given parameters the output is linear in the mask, so real and imaginary parts may be resampled separately. -/
theorem C60_linear (S : ClampSpline) (R : Rotate) (n m : ℕ) (f g : Fin n → Fin m → ℝ) (a b rot mag xo yo padFac : ℝ) (flipx : Bool) (o1 o2 : Arr2 ℝ)
    (h1 : rotateShiftDownsample S R ⟨n, m, f⟩ rot mag xo yo padFac flipx = .ok o1)
    (h2 : rotateShiftDownsample S R ⟨n, m, g⟩ rot mag xo yo padFac flipx = .ok o2) :
    ∃ o, rotateShiftDownsample S R ⟨n, m, fun i j => a * f i j + b * g i j⟩ rot mag xo yo padFac flipx = .ok o ∧
      ∀ i j x y, o1.px i j = some x → o2.px i j = some y → o.px i j = some (a * x + b * y) := by
  have A1 := (C60_accepts S R ⟨n, m, f⟩ rot mag xo yo padFac flipx).mp ⟨o1, h1⟩
  have A2 := (C60_accepts S R ⟨n, m, g⟩ rot mag xo yo padFac flipx).mp ⟨o2, h2⟩
  have A : MaskArgs ⟨n, m, fun i j => a * f i j + b * g i j⟩ mag padFac := ⟨A1.magPos, A1.magLe, A1.pad, A1.enough⟩
  obtain ⟨s1, s2, s3⟩ := side_facts (padFac * (max n m : ℕ))
  have h4 := s3.mpr A1.enough
  obtain ⟨N, hN⟩ := Int.eq_ofNat_of_zero_le (show 0 ≤ ceilOdd (padFac * (max n m : ℕ)) by omega)
  rw [rsd_ok S R _ rot mag xo yo padFac flipx A1 N hN.symm] at h1
  rw [rsd_ok S R _ rot mag xo yo padFac flipx A2 N hN.symm] at h2
  refine ⟨_, rsd_ok S R _ rot mag xo yo padFac flipx A N hN.symm, ?_⟩
  obtain rfl := Except.ok.inj h1
  obtain rfl := Except.ok.inj h2
  have hprep : prepared ⟨n, m, fun i j => a * f i j + b * g i j⟩ N flipx = fun i j => a * prepared ⟨n, m, f⟩ N flipx i j + b * prepared ⟨n, m, g⟩ N flipx i j := by
    have ce : Combines a b (embed ⟨n, m, fun i j => a * f i j + b * g i j⟩ N N 0) (embed ⟨n, m, f⟩ N N 0) (embed ⟨n, m, g⟩ N N 0) :=
      (combines_mk a b n m f g).crop (N : ℤ) (N : ℤ) (padCrop_eq _ _ _ _ (by omega) (by omega)) (padCrop_eq _ _ _ _ (by omega) (by omega))
        (padCrop_eq _ _ _ _ (by omega) (by omega))
    funext i j
    have := congrFun (congrFun (Combines.val (f := (embed ⟨n, m, fun i j => a * f i j + b * g i j⟩ N N 0).val)
      (g := (embed ⟨n, m, f⟩ N N 0).val) (h := (embed ⟨n, m, g⟩ N N 0).val) ce) i) (if flipx = true then j.rev else j)
    exact this
  rw [hprep]
  have cA : Combines a b
      (if rot = 0 then smoothMask (normWindow (discWindow N (1 / mag))) ⟨N, N, fun i j => a * prepared ⟨n, m, f⟩ N flipx i j + b * prepared ⟨n, m, g⟩ N flipx i j⟩
        else R.run (-rot) (smoothMask (normWindow (discWindow N (1 / mag))) ⟨N, N, fun i j => a * prepared ⟨n, m, f⟩ N flipx i j + b * prepared ⟨n, m, g⟩ N flipx i j⟩))
      (if rot = 0 then smoothMask (normWindow (discWindow N (1 / mag))) ⟨N, N, prepared ⟨n, m, f⟩ N flipx⟩
        else R.run (-rot) (smoothMask (normWindow (discWindow N (1 / mag))) ⟨N, N, prepared ⟨n, m, f⟩ N flipx⟩))
      (if rot = 0 then smoothMask (normWindow (discWindow N (1 / mag))) ⟨N, N, prepared ⟨n, m, g⟩ N flipx⟩
        else R.run (-rot) (smoothMask (normWindow (discWindow N (1 / mag))) ⟨N, N, prepared ⟨n, m, g⟩ N flipx⟩)) := by
    have c0 := Combines.smooth (a := a) (b := b) N (by omega) (normWindow (discWindow N (1 / mag))).val (prepared ⟨n, m, f⟩ N flipx) (prepared ⟨n, m, g⟩ N flipx)
    by_cases hr : rot = 0
    · simp only [if_pos hr]
      exact c0
    · simp only [if_neg hr]
      exact c0.rotate R (-rot)
  obtain ⟨n', m', g', k', e1, e2, e3⟩ := cA.elim
  rw [e1, e2, e3]
  intro i j x y hx hy
  have hbx : (0 ≤ i ∧ i < (resampled S ⟨n', m', g'⟩ N (ceilOdd ((N : ℝ) * mag + 2 + 2 * max |xo| |yo|)).toNat mag xo yo).nr) ∧
      (0 ≤ j ∧ j < (resampled S ⟨n', m', g'⟩ N (ceilOdd ((N : ℝ) * mag + 2 + 2 * max |xo| |yo|)).toNat mag xo yo).nc) := by
    rw [← Arr2.px_isSome, hx]; rfl
  have ex := (Arr2.px_of_inB _ hbx).symm.trans hx
  have ey := (Arr2.px_of_inB (resampled S ⟨n', m', k'⟩ N (ceilOdd ((N : ℝ) * mag + 2 + 2 * max |xo| |yo|)).toNat mag xo yo) hbx).symm.trans hy
  refine (Arr2.px_of_inB (resampled S ⟨n', m', fun i j => a * g' i j + b * k' i j⟩ N (ceilOdd ((N : ℝ) * mag + 2 + 2 * max |xo| |yo|)).toNat mag xo yo)
    hbx).trans ?_
  rw [← Option.some.inj ex, ← Option.some.inj ey]
  congr 1
  show (if i.toNat = 0 ∨ j.toNat = 0 then (0 : ℝ) else _) = a * (if i.toNat = 0 ∨ j.toNat = 0 then (0 : ℝ) else _) + b * (if i.toNat = 0 ∨ j.toNat = 0 then (0 : ℝ) else _)
  by_cases hz : i.toNat = 0 ∨ j.toNat = 0
  · simp only [if_pos hz]; ring
  · simp only [if_neg hz]
    exact S.linear _ _ n' m' g' k' a b _ _

/-- A `5 x 6` mask, padded by half, at full size and at half size, shifted by whole pixels. -/
example : MaskArgs (Arr2.ofFn 5 6 fun i j => (i : ℝ) + j) 1 1.5 ∧ MaskArgs (Arr2.ofFn 5 6 fun i j => (i : ℝ) + j) (1 / (2 : ℕ)) 1.5 ∧
    (((max (Arr2.ofFn 5 6 fun i j => (i : ℝ) + j).nr (Arr2.ofFn 5 6 fun i j => (i : ℝ) + j).nc : ℕ) : ℝ) + 2 ≤
      1.5 * (max (Arr2.ofFn 5 6 fun i j => (i : ℝ) + j).nr (Arr2.ofFn 5 6 fun i j => (i : ℝ) + j).nc : ℕ)) := by
  refine ⟨⟨by norm_num, by norm_num, by norm_num, ?_⟩, ⟨by norm_num, by norm_num, by norm_num, ?_⟩, ?_⟩ <;>
    simp only [Arr2.ofFn_nr, Arr2.ofFn_nc] <;> norm_num

/-- The disc of diameter 2 is a plus of five pixels. -/
example : (1, 0) ∈ discOffsets 2 ∧ (1, 1) ∉ discOffsets 2 := by
  rw [mem_disc 2 _ (by norm_num), mem_disc 2 _ (by norm_num)]
  norm_num

end Coralign.Props
