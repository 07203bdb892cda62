import Verif.Props.UpDft
import Verif.Props.Fft
import Verif.Props.Pupil
import Mathlib.Analysis.Convex.StrictConvexSpace
import Mathlib.Analysis.InnerProductSpace.Convex

/-!
# Property C54: PSF registration
-/

namespace Coralign.Props

open Coralign Finset

/-! ### Specification -/

/-- The target is `A` times the source, translated cyclically by `(y, x)` pixels. -/
def Translated {n m : ℕ} (f t : Fin n → Fin m → ℝ) (A : ℝ) (y x : ℕ) : Prop :=
  ∀ i j, t (rollIdx n y i) (rollIdx m x j) = A * f i j

/-- `s` is the translation `y` of an axis of length `n`, as a signed shift of at most half the axis. -/
def SignedShift (n y : ℕ) (s : ℤ) : Prop := (n : ℤ) ∣ s - y ∧ -((n / 2 : ℕ) : ℤ) ≤ s ∧ s ≤ (((n - 1) / 2 : ℕ) : ℤ)

/-- No cyclic translation other than the trivial ones leaves the image unchanged. -/
def Asymmetric {n m : ℕ} (f : Fin n → Fin m → ℝ) : Prop :=
  ∀ y x : ℕ, (∀ i j, f (rollIdx n y i) (rollIdx m x j) = f i j) → n ∣ y ∧ m ∣ x

/-- `M` is the largest pixel. -/
def IsPeak (a : Arr2 ℝ) (M : ℝ) : Prop := (∃ i j, a.val i j = M) ∧ ∀ i j, a.val i j ≤ M

/-! ### Sums of unit phases -/

/-- The triangle inequality for weighted unit phases is strict when two of the phases differ. -/
theorem norm_sum_lt {ι : Type} [Fintype ι] (w : ι → ℝ) (hw : ∀ i, 0 ≤ w i) (z : ι → ℂ) (hz : ∀ i, ‖z i‖ = 1) (a b : ι)
    (ha : 0 < w a) (hb : 0 < w b) (hne : z a ≠ z b) : ‖∑ i, (w i : ℂ) * z i‖ < ∑ i, w i := by
  classical
  have hab : b ∈ (univ : Finset ι).erase a := Finset.mem_erase.mpr ⟨fun h => hne (by rw [h]), Finset.mem_univ _⟩
  rw [← Finset.add_sum_erase _ _ (Finset.mem_univ a), ← Finset.add_sum_erase _ _ hab, ← add_assoc,
    ← Finset.add_sum_erase _ w (Finset.mem_univ a), ← Finset.add_sum_erase _ w hab, ← add_assoc]
  have nrm : ∀ i, ‖(w i : ℂ) * z i‖ = w i := by
    intro i
    rw [norm_mul, hz, mul_one, Complex.norm_real, Real.norm_of_nonneg (hw i)]
  have h1 : ‖(w a : ℂ) * z a + (w b : ℂ) * z b‖ < w a + w b := by
    have key : ‖(w a : ℂ) * z a + (w b : ℂ) * z b‖ < ‖(w a : ℂ) * z a‖ + ‖(w b : ℂ) * z b‖ := ?_
    · rwa [nrm a, nrm b] at key
    apply norm_add_lt_of_not_sameRay
    intro hs
    have := hs.norm_smul_eq
    rw [nrm, nrm] at this
    apply hne
    have h2 : ((w a : ℂ) * (w b : ℂ)) * z b = ((w a : ℂ) * (w b : ℂ)) * z a := by
      have e := this
      simp only [Complex.real_smul] at e
      rw [mul_assoc, e]; ring
    have hne0 : ((w a : ℂ) * (w b : ℂ)) ≠ 0 := by
      simp only [ne_eq, mul_eq_zero, Complex.ofReal_eq_zero]
      push Not
      exact ⟨ha.ne', hb.ne'⟩
    exact (mul_left_cancel₀ hne0 h2).symm
  refine lt_of_le_of_lt (norm_add_le _ _) (add_lt_add_of_lt_of_le h1 ?_)
  refine (norm_sum_le _ _).trans (le_of_eq ?_)
  exact Finset.sum_congr rfl fun i _ => nrm i

/-- Weighted phases at the frequencies of an `n × m` transform. -/
noncomputable def phases {n m : ℕ} (W : Fin n → Fin m → ℝ) (x y : ℝ) : ℂ :=
  ∑ p : Fin n, ∑ q : Fin m, (W p q : ℂ) * cis (x * fftfreqNum n p / n + y * fftfreqNum m q / m)

theorem phases_lt {n m : ℕ} (W : Fin n → Fin m → ℝ) (hW : ∀ p q, 0 ≤ W p q) (p0 q0 p1 : _) (q1 : _)
    (h0 : 0 < W p0 q0) (h1 : 0 < W p1 q1) (x y : ℝ)
    (hne : cis (x * fftfreqNum n p0 / n + y * fftfreqNum m q0 / m) ≠ cis (x * fftfreqNum n p1 / n + y * fftfreqNum m q1 / m)) :
    ‖phases W x y‖ < ‖phases W 0 0‖ := by
  have e0 : phases W 0 0 = ((∑ p, ∑ q, W p q : ℝ) : ℂ) := by
    unfold phases
    simp
  rw [e0, Complex.norm_real, Real.norm_of_nonneg (Finset.sum_nonneg fun p _ => Finset.sum_nonneg fun q _ => hW p q)]
  have := norm_sum_lt (fun k : Fin n × Fin m => W k.1 k.2) (fun k => hW _ _)
    (fun k => cis (x * fftfreqNum n k.1 / n + y * fftfreqNum m k.2 / m)) (fun _ => norm_cis _) (p0, q0) (p1, q1) h0 h1 hne
  rw [Fintype.sum_prod_type, Fintype.sum_prod_type] at this
  exact this

theorem cis_fftfreq_pos (n k : ℕ) (hn : 0 < n) (t : ℤ) : cis ((t : ℝ) * fftfreqNum n k / n) = cis ((t : ℝ) * (k : ℝ) / n) := by
  have := cis_fftfreq n k hn (-t)
  have e : ∀ z : ℝ, -(((-t : ℤ) : ℝ) * z / n) = (t : ℝ) * z / n := by intro z; push_cast; ring
  rwa [e, e] at this

/-- Whole periods do not matter. -/
theorem phases_periodic {n m : ℕ} (W : Fin n → Fin m → ℝ) (x y : ℝ) (k l : ℤ) :
    phases W (x + n * k) (y + m * l) = phases W x y := by
  unfold phases
  refine Finset.sum_congr rfl fun p _ => Finset.sum_congr rfl fun q _ => ?_
  congr 1
  have hn : (n : ℝ) ≠ 0 := by have := p.isLt; have : 0 < n := by omega
                              positivity
  have hm : (m : ℝ) ≠ 0 := by have := q.isLt; have : 0 < m := by omega
                              positivity
  rw [← cis_add_int (x * fftfreqNum n p / n + y * fftfreqNum m q / m) (k * fftfreqNum n p + l * fftfreqNum m q)]
  congr 1
  push_cast
  field_simp
  ring

theorem phases_int {n m : ℕ} (W : Fin n → Fin m → ℝ) (x y : ℤ) :
    phases W x y = ∑ p : Fin n, ∑ q : Fin m, (W p q : ℂ) * cis ((x : ℝ) * ((p : ℕ) : ℝ) / n + (y : ℝ) * ((q : ℕ) : ℝ) / m) := by
  unfold phases
  refine Finset.sum_congr rfl fun p _ => Finset.sum_congr rfl fun q _ => ?_
  rw [cis_add, cis_fftfreq_pos n p (Nat.lt_of_le_of_lt (Nat.zero_le _) p.isLt), cis_fftfreq_pos m q (Nat.lt_of_le_of_lt (Nat.zero_le _) q.isLt),
    ← cis_add]

/-! ### The transform of a translated image -/

/-- The transform of the source, with real pixels. -/
noncomputable def spec {n m : ℕ} (f : Fin n → Fin m → ℝ) (p : Fin n) (q : Fin m) : ℂ := (npFft2 (Arr2.toC ⟨n, m, f⟩)).val p q

theorem spec_eq {n m : ℕ} (f : Fin n → Fin m → ℝ) (p : Fin n) (q : Fin m) :
    spec f p q = ∑ i : Fin n, ∑ j : Fin m, (f i j : ℂ) *
      cis (-(((p : ℕ) : ℝ) * ((i : ℕ) : ℝ) / n + ((q : ℕ) : ℝ) * ((j : ℕ) : ℝ) / m)) := rfl

theorem spec_dftAt {n m : ℕ} (f : Fin n → Fin m → ℝ) (p : Fin n) (q : Fin m) :
    spec f p q = dftAt (Arr2.toC ⟨n, m, f⟩) (p : ℕ) (q : ℕ) := by
  rw [spec_eq]
  unfold dftAt
  refine Finset.sum_congr rfl fun i _ => Finset.sum_congr rfl fun j _ => ?_
  unfold cis Arr2.toC Arr2.map
  congr 2
  push_cast
  ring

theorem spec_translated {n m : ℕ} (f t : Fin n → Fin m → ℝ) (A : ℝ) (y x : ℕ) (h : Translated f t A y x) (p : Fin n) (q : Fin m) :
    spec t p q = A * spec f p q * cis (-((y : ℝ) * ((p : ℕ) : ℝ) / n + (x : ℝ) * ((q : ℕ) : ℝ) / m)) := by
  rw [spec_eq, spec_eq, ← sum_rollIdx n y]
  rw [Finset.mul_sum, Finset.sum_mul]
  refine Finset.sum_congr rfl fun i _ => ?_
  rw [← sum_rollIdx m x, Finset.mul_sum, Finset.sum_mul]
  refine Finset.sum_congr rfl fun j _ => ?_
  rw [h i j]
  obtain ⟨k, hk⟩ := rollIdx_val n y i
  obtain ⟨l, hl⟩ := rollIdx_val m x j
  have hk' : ((rollIdx n y i : ℕ) : ℝ) = (i : ℕ) + y - n * k := by exact_mod_cast hk
  have hl' : ((rollIdx m x j : ℕ) : ℝ) = (j : ℕ) + x - m * l := by exact_mod_cast hl
  have hn : (n : ℝ) ≠ 0 := by have := p.isLt; have : 0 < n := by omega
                              positivity
  have hm : (m : ℝ) ≠ 0 := by have := q.isLt; have : 0 < m := by omega
                              positivity
  rw [hk', hl']
  push_cast
  rw [mul_assoc (A : ℂ), mul_assoc (A : ℂ), mul_assoc ((f i j : ℝ) : ℂ), ← cis_add]
  congr 2
  rw [← cis_add_int _ (-(((p : ℕ) : ℤ) * k + ((q : ℕ) : ℤ) * l))]
  congr 1
  push_cast
  field_simp
  ring

/-- The spectrum determines the image. -/
theorem spec_injective {n m : ℕ} (f g : Fin n → Fin m → ℝ) (h : ∀ p q, spec f p q = spec g p q) : f = g := by
  funext i0 j0
  have hn : 0 < n := Nat.lt_of_le_of_lt (Nat.zero_le _) i0.isLt
  have hm : 0 < m := Nat.lt_of_le_of_lt (Nat.zero_le _) j0.isLt
  have hF : npFft2 (Arr2.toC ⟨n, m, f⟩) = npFft2 (Arr2.toC ⟨n, m, g⟩) := by
    have : (npFft2 (Arr2.toC ⟨n, m, f⟩)).val = (npFft2 (Arr2.toC ⟨n, m, g⟩)).val := by
      funext p q; exact h p q
    exact congrArg (fun v => (⟨n, m, v⟩ : Arr2 ℂ)) this
  have roll : ∀ (k : ℕ) (i : Fin k), rollIdx k (k - k / 2) (rollIdx k (k / 2) i) = i := by
    intro k i
    apply Fin.ext
    simp only [rollIdx]
    rw [Nat.mod_add_mod, show (i : ℕ) + k / 2 + (k - k / 2) = i + k by omega, Nat.add_mod_right, Nat.mod_eq_of_lt i.isLt]
  have hsh : ∀ a : Arr2 ℂ, ifftshift (fftshift a) = a := by
    intro a
    unfold ifftshift fftshift
    simp only [roll]
  have hd : doFft (fftshift (Arr2.toC ⟨n, m, f⟩)) = doFft (fftshift (Arr2.toC ⟨n, m, g⟩)) := by
    unfold doFft
    rw [hsh, hsh, hF]
  have hi := congrArg doIfft hd
  rw [C17_ifft_fft _ hn hm, C17_ifft_fft _ hn hm] at hi
  have he := congrArg ifftshift hi
  rw [hsh, hsh] at he
  have e1 := congrArg (fun a : Arr2 ℂ => a.px (i0 : ℕ) (j0 : ℕ)) he
  have px := fun (u : Fin n → Fin m → ℝ) => Arr2.px_val (Arr2.toC ⟨n, m, u⟩) i0 j0
  rw [px f, px g] at e1
  have e2 := Option.some.inj e1
  have : ((f i0 j0 : ℝ) : ℂ) = ((g i0 j0 : ℝ) : ℂ) := e2
  exact_mod_cast this

/-! ### The correlation -/

/-- The weights of the correlation. -/
noncomputable def weight {n m : ℕ} (f : Fin n → Fin m → ℝ) (A : ℝ) (p : Fin n) (q : Fin m) : ℝ := A * ‖spec f p q‖ ^ 2

theorem product_val {n m : ℕ} (f t : Fin n → Fin m → ℝ) (A : ℝ) (y x : ℕ) (h : Translated f t A y x) (p : Fin n) (q : Fin m) :
    (imageProduct ⟨n, m, f⟩ ⟨n, m, t⟩).val p q =
      (weight f A p q : ℂ) * cis ((y : ℝ) * ((p : ℕ) : ℝ) / n + (x : ℝ) * ((q : ℕ) : ℝ) / m) := by
  have e : (imageProduct ⟨n, m, f⟩ ⟨n, m, t⟩).val p q = spec f p q * (starRingEnd ℂ) (spec t p q) := by
    unfold imageProduct
    simp only
    have := Arr2.px_val (npFft2 (Arr2.toC ⟨n, m, t⟩)) p q
    rw [this]
    rfl
  rw [e, spec_translated f t A y x h, map_mul, map_mul, conj_cis, neg_neg, Complex.conj_ofReal]
  unfold weight
  push_cast
  rw [← Complex.mul_conj']
  ring

theorem coarse_val {n m : ℕ} (f t : Fin n → Fin m → ℝ) (A : ℝ) (y x : ℕ) (h : Translated f t A y x) (r : Fin n) (s : Fin m) :
    (npIfft2 (imageProduct ⟨n, m, f⟩ ⟨n, m, t⟩)).val r s =
      1 / ((n : ℂ) * m) * phases (weight f A) (((r : ℕ) + y : ℤ) : ℝ) (((s : ℕ) + x : ℤ) : ℝ) := by
  rw [phases_int]
  unfold npIfft2
  simp only
  congr 1
  refine Finset.sum_congr rfl fun p _ => Finset.sum_congr rfl fun q _ => ?_
  have := product_val f t A y x h p q
  rw [this, mul_assoc, ← cis_add]
  congr 2
  show _ + (((r : ℕ) : ℝ) * ((p : ℕ) : ℝ) / n + ((s : ℕ) : ℝ) * ((q : ℕ) : ℝ) / m) = _
  push_cast
  ring

/-- The position of the cyclic inverse. -/
def negIdx (n y : ℕ) (hn : 0 < n) : Fin n := ⟨((-(y : ℤ)) % n).toNat, by
  have h1 := Int.emod_nonneg (-(y : ℤ)) (show (n : ℤ) ≠ 0 by omega)
  have h2 := Int.emod_lt_of_pos (-(y : ℤ)) (show (0 : ℤ) < n by omega)
  omega⟩

theorem negIdx_dvd (n y : ℕ) (hn : 0 < n) (r : Fin n) : (n : ℤ) ∣ (r : ℕ) + y ↔ r = negIdx n y hn := by
  have h1 := Int.emod_nonneg (-(y : ℤ)) (show (n : ℤ) ≠ 0 by omega)
  have h2 := Int.emod_lt_of_pos (-(y : ℤ)) (show (0 : ℤ) < n by omega)
  have h3 := Int.emod_add_mul_ediv (-(y : ℤ)) n
  constructor
  · intro hd
    apply Fin.ext
    unfold negIdx
    simp only
    have hd2 : (n : ℤ) ∣ (r : ℕ) - (-(y : ℤ)) % n := by
      have : ((r : ℕ) : ℤ) - (-(y : ℤ)) % n = ((r : ℕ) + y) + n * (-(y : ℤ) / n) := by linarith
      rw [this]
      exact dvd_add hd (dvd_mul_right _ _)
    have hr := r.isLt
    have := Int.eq_zero_of_abs_lt_dvd hd2 (by rw [abs_lt]; omega)
    omega
  · rintro rfl
    unfold negIdx
    simp only
    rw [Int.toNat_of_nonneg h1]
    exact ⟨-(-(y : ℤ) / n), by linarith⟩

theorem unwrap_signed (n y : ℕ) (hn : 0 < n) : SignedShift n y (-(unwrapShift n (negIdx n y hn))) := by
  have hd := (negIdx_dvd n y hn (negIdx n y hn)).mpr rfl
  have hlt := (negIdx n y hn).isLt
  generalize ((negIdx n y hn : Fin n) : ℕ) = r at hd hlt ⊢
  unfold SignedShift unwrapShift
  obtain ⟨c, hc⟩ := hd
  split
  · next h =>
    refine ⟨⟨1 - c, ?_⟩, ?_, ?_⟩
    · rw [mul_sub, mul_one, ← hc]; ring
    · omega
    · omega
  · next h =>
    refine ⟨⟨-c, ?_⟩, ?_, ?_⟩
    · rw [mul_neg, ← hc]; ring
    · omega
    · omega

/-- The pixel-precision stage finds the translation, when the correlation at any other position is strictly smaller. -/
theorem coarse_found {n m : ℕ} (hn : 0 < n) (hm : 0 < m) (f t : Fin n → Fin m → ℝ) (A : ℝ) (y x : ℕ) (h : Translated f t A y x)
    (hlt : ∀ a b : ℤ, ¬ ((n : ℤ) ∣ a ∧ (m : ℤ) ∣ b) → ‖phases (weight f A) (a : ℝ) (b : ℝ)‖ < ‖phases (weight f A) 0 0‖) :
    argmax2 ((npIfft2 (imageProduct ⟨n, m, f⟩ ⟨n, m, t⟩)).map fun z => ‖z‖) =
      (((negIdx n y hn : Fin n) : ℕ), ((negIdx m x hm : Fin m) : ℕ)) := by
  refine argmax2_unique ((npIfft2 (imageProduct ⟨n, m, f⟩ ⟨n, m, t⟩)).map fun z => ‖z‖) (negIdx n y hn) (negIdx m x hm) ?_
  intro r s hrs
  have hv := fun (r : Fin n) (s : Fin m) => congrArg (fun z => ‖z‖) (coarse_val f t A y x h r s)
  have hpos : 0 < ‖(1 / ((n : ℂ) * m))‖ := by
    rw [norm_pos_iff]
    have h1 : (n : ℂ) ≠ 0 := by exact_mod_cast hn.ne'
    have h2 : (m : ℂ) ≠ 0 := by exact_mod_cast hm.ne'
    exact one_div_ne_zero (mul_ne_zero h1 h2)
  have e1 := hv r s
  have e2 := hv (negIdx n y hn) (negIdx m x hm)
  simp only [norm_mul] at e1 e2
  have goal1 : ‖(npIfft2 (imageProduct ⟨n, m, f⟩ ⟨n, m, t⟩)).val r s‖ <
      ‖(npIfft2 (imageProduct ⟨n, m, f⟩ ⟨n, m, t⟩)).val (negIdx n y hn) (negIdx m x hm)‖ := by
    rw [e1, e2]
    refine mul_lt_mul_of_pos_left ?_ (by simpa [norm_mul] using hpos)
    obtain ⟨k, hk⟩ := (negIdx_dvd n y hn (negIdx n y hn)).mpr rfl
    obtain ⟨l, hl⟩ := (negIdx_dvd m x hm (negIdx m x hm)).mpr rfl
    have hz : phases (weight f A) ((((negIdx n y hn : Fin n) : ℕ) + y : ℤ) : ℝ) ((((negIdx m x hm : Fin m) : ℕ) + x : ℤ) : ℝ) =
        phases (weight f A) 0 0 := by
      have := phases_periodic (weight f A) 0 0 k l
      rw [← this, hk, hl]
      push_cast
      rw [zero_add, zero_add]
    rw [hz]
    apply hlt
    rintro ⟨d1, d2⟩
    rcases hrs with hne | hne
    · exact hne ((negIdx_dvd n y hn r).mp d1)
    · exact hne ((negIdx_dvd m x hm s).mp d2)
  exact goal1

theorem spec_zero {n m : ℕ} (f : Fin n → Fin m → ℝ) (p : Fin n) (q : Fin m) (hp : (p : ℕ) = 0) (hq : (q : ℕ) = 0) :
    spec f p q = ((∑ i, ∑ j, f i j : ℝ) : ℂ) := by
  rw [spec_eq, hp, hq]
  push_cast
  refine Finset.sum_congr rfl fun i _ => Finset.sum_congr rfl fun j _ => ?_
  simp

theorem weight_nonneg {n m : ℕ} (f : Fin n → Fin m → ℝ) (A : ℝ) (hA : 0 < A) (p : Fin n) (q : Fin m) : 0 ≤ weight f A p q :=
  mul_nonneg hA.le (by positivity)

theorem weight_pos {n m : ℕ} (f : Fin n → Fin m → ℝ) (A : ℝ) (hA : 0 < A) (p : Fin n) (q : Fin m) (h : spec f p q ≠ 0) :
    0 < weight f A p q :=
  mul_pos hA (by have := norm_pos_iff.mpr h; positivity)

theorem asymmetric_lt {n m : ℕ} (hn : 0 < n) (hm : 0 < m) (f : Fin n → Fin m → ℝ) (A : ℝ) (hA : 0 < A) (hsum : ∑ i, ∑ j, f i j ≠ 0)
    (hasym : Asymmetric f) (a b : ℤ) (hab : ¬ ((n : ℤ) ∣ a ∧ (m : ℤ) ∣ b)) :
    ‖phases (weight f A) (a : ℝ) (b : ℝ)‖ < ‖phases (weight f A) 0 0‖ := by
  have key : ∀ y x : ℕ, ¬ (n ∣ y ∧ m ∣ x) → ‖phases (weight f A) (((y : ℕ) : ℤ) : ℝ) (((x : ℕ) : ℤ) : ℝ)‖ < ‖phases (weight f A) 0 0‖ := by
    intro y x hyx
    have h0 : spec f ⟨0, hn⟩ ⟨0, hm⟩ ≠ 0 := by
      rw [spec_zero f ⟨0, hn⟩ ⟨0, hm⟩ rfl rfl]
      exact_mod_cast hsum
    obtain ⟨p, q, hpq, hne⟩ : ∃ p q, spec f p q ≠ 0 ∧ cis ((y : ℝ) * ((p : ℕ) : ℝ) / n + (x : ℝ) * ((q : ℕ) : ℝ) / m) ≠ 1 := by
      by_contra hno
      push Not at hno
      apply hyx
      apply hasym
      have htr : Translated (fun i j => f (rollIdx n y i) (rollIdx m x j)) f 1 y x := fun i j => (one_mul _).symm
      have : (fun i j => f (rollIdx n y i) (rollIdx m x j)) = f := by
        apply spec_injective
        intro p q
        have e := spec_translated _ f 1 y x htr p q
        by_cases hz : spec f p q = 0
        · rw [hz] at e ⊢
          have hc : cis (-((y : ℝ) * ((p : ℕ) : ℝ) / n + (x : ℝ) * ((q : ℕ) : ℝ) / m)) ≠ 0 := by
            rw [← norm_pos_iff, norm_cis]; exact one_pos
          have := (mul_eq_zero.mp e.symm).resolve_right hc
          simpa using this
        · have h1 := hno p q hz
          have h2 : cis (-((y : ℝ) * ((p : ℕ) : ℝ) / n + (x : ℝ) * ((q : ℕ) : ℝ) / m)) = 1 := by
            rw [← conj_cis, h1, map_one]
          rw [h2] at e
          simpa using e.symm
      intro i j
      exact congrFun (congrFun this i) j
    refine phases_lt (weight f A) (weight_nonneg f A hA) ⟨0, hn⟩ ⟨0, hm⟩ p q (weight_pos f A hA _ _ h0) (weight_pos f A hA _ _ hpq) _ _ ?_
    rw [cis_add, cis_add, cis_fftfreq_pos n p hn, cis_fftfreq_pos m q hm, ← cis_add, ← cis_add]
    intro h
    apply hne
    have hl : cis ((((y : ℕ) : ℤ) : ℝ) * ((fftfreqNum n ((⟨0, hn⟩ : Fin n) : ℕ) : ℤ) : ℝ) / n +
        (((x : ℕ) : ℤ) : ℝ) * ((fftfreqNum m ((⟨0, hm⟩ : Fin m) : ℕ) : ℤ) : ℝ) / m) = 1 := by
      simp
    rw [hl] at h
    push_cast at h
    exact h.symm
  have ha := Int.emod_add_mul_ediv a n
  have hb := Int.emod_add_mul_ediv b m
  have ha0 := Int.emod_nonneg a (show (n : ℤ) ≠ 0 by omega)
  have hb0 := Int.emod_nonneg b (show (m : ℤ) ≠ 0 by omega)
  have hper := phases_periodic (weight f A) (((a % n).toNat : ℤ) : ℝ) (((b % m).toNat : ℤ) : ℝ) (a / n) (b / m)
  rw [Int.toNat_of_nonneg ha0, Int.toNat_of_nonneg hb0] at hper
  have ea : ((a % n : ℤ) : ℝ) + n * ((a / n : ℤ) : ℝ) = a := by exact_mod_cast ha
  have eb : ((b % m : ℤ) : ℝ) + m * ((b / m : ℤ) : ℝ) = b := by exact_mod_cast hb
  rw [ea, eb] at hper
  rw [hper]
  have := key (a % n).toNat (b % m).toNat ?_
  · rwa [Int.toNat_of_nonneg ha0, Int.toNat_of_nonneg hb0] at this
  · rintro ⟨h1, h2⟩
    apply hab
    have h1' : (n : ℤ) ∣ ((a % n).toNat : ℤ) := by exact_mod_cast h1
    have h2' : (m : ℤ) ∣ ((b % m).toNat : ℤ) := by exact_mod_cast h2
    rw [Int.toNat_of_nonneg ha0] at h1'
    rw [Int.toNat_of_nonneg hb0] at h2'
    exact ⟨(Int.dvd_iff_emod_eq_zero ..).mpr (by
        have := Int.emod_emod_of_dvd a (dvd_refl (n : ℤ)); rw [← this]; exact Int.emod_eq_zero_of_dvd h1'),
      (Int.dvd_iff_emod_eq_zero ..).mpr (by
        have := Int.emod_emod_of_dvd b (dvd_refl (m : ℤ)); rw [← this]; exact Int.emod_eq_zero_of_dvd h2')⟩

/-- A fraction of a period, not zero, changes the phase of the lowest frequency. -/
theorem cis_fraction (n : ℕ) (hn : 2 ≤ n) (d : ℝ) (hd : |d| < n) (h : cis (d * fftfreqNum n 1 / n) = 1) : d = 0 := by
  have hn' : (0 : ℝ) < n := by have : 0 < n := by omega
                               exact_mod_cast this
  obtain ⟨z, hz⟩ := (cis_eq_one_iff _).mp h
  have hsq : ((fftfreqNum n 1 : ℤ) : ℝ) = 1 ∨ ((fftfreqNum n 1 : ℤ) : ℝ) = -1 := by
    rcases fftfreqNum_one n hn with h | h <;> rw [h] <;> simp
  have hz' : d * fftfreqNum n 1 = n * z := by
    rw [div_eq_iff hn'.ne'] at hz
    rw [hz, mul_comm]
  have habs : |d| = n * |(z : ℝ)| := by
    have := congrArg abs hz'
    rw [abs_mul, abs_mul, abs_of_pos hn'] at this
    rcases hsq with h | h <;> rw [h] at this <;> simpa using this
  rw [habs] at hd
  have hz1 : |(z : ℝ)| < 1 := by
    by_contra hge
    push Not at hge
    nlinarith
  have hz0 : z = 0 := by
    rw [← Int.cast_abs] at hz1
    have : |z| < 1 := by exact_mod_cast hz1
    exact Int.abs_lt_one_iff.mp this
  rw [hz0] at habs
  simpa using habs

theorem fraction_lt {n m : ℕ} (hn : 2 ≤ n) (hm : 2 ≤ m) (f : Fin n → Fin m → ℝ) (A : ℝ) (hA : 0 < A)
    (h00 : spec f ⟨0, by omega⟩ ⟨0, by omega⟩ ≠ 0) (h10 : spec f ⟨1, by omega⟩ ⟨0, by omega⟩ ≠ 0)
    (h01 : spec f ⟨0, by omega⟩ ⟨1, by omega⟩ ≠ 0) (x y : ℝ) (hx : |x| < n) (hy : |y| < m) (hne : ¬ (x = 0 ∧ y = 0)) :
    ‖phases (weight f A) x y‖ < ‖phases (weight f A) 0 0‖ := by
  by_cases h0 : x = 0
  · refine phases_lt (weight f A) (weight_nonneg f A hA) ⟨0, by omega⟩ ⟨0, by omega⟩ ⟨0, by omega⟩ ⟨1, by omega⟩
      (weight_pos f A hA _ _ h00) (weight_pos f A hA _ _ h01) _ _ ?_
    intro h
    simp only [fftfreqNum_zero, Int.cast_zero, mul_zero, zero_div, zero_add, cis_zero] at h
    exact hne ⟨h0, cis_fraction m hm y hy h.symm⟩
  · refine phases_lt (weight f A) (weight_nonneg f A hA) ⟨0, by omega⟩ ⟨0, by omega⟩ ⟨1, by omega⟩ ⟨0, by omega⟩
      (weight_pos f A hA _ _ h00) (weight_pos f A hA _ _ h10) _ _ ?_
    intro h
    simp only [fftfreqNum_zero, Int.cast_zero, mul_zero, zero_div, add_zero, cis_zero] at h
    exact h0 (cis_fraction n hn x hx h.symm)

theorem fraction_int_lt {n m : ℕ} (hn : 2 ≤ n) (hm : 2 ≤ m) (f : Fin n → Fin m → ℝ) (A : ℝ) (hA : 0 < A)
    (h00 : spec f ⟨0, by omega⟩ ⟨0, by omega⟩ ≠ 0) (h10 : spec f ⟨1, by omega⟩ ⟨0, by omega⟩ ≠ 0)
    (h01 : spec f ⟨0, by omega⟩ ⟨1, by omega⟩ ≠ 0) (a b : ℤ) (hab : ¬ ((n : ℤ) ∣ a ∧ (m : ℤ) ∣ b)) :
    ‖phases (weight f A) (a : ℝ) (b : ℝ)‖ < ‖phases (weight f A) 0 0‖ := by
  have ha := Int.emod_add_mul_ediv a n
  have hb := Int.emod_add_mul_ediv b m
  have ha0 := Int.emod_nonneg a (show (n : ℤ) ≠ 0 by omega)
  have hb0 := Int.emod_nonneg b (show (m : ℤ) ≠ 0 by omega)
  have ha1 := Int.emod_lt_of_pos a (show (0 : ℤ) < n by omega)
  have hb1 := Int.emod_lt_of_pos b (show (0 : ℤ) < m by omega)
  have hper := phases_periodic (weight f A) ((a % n : ℤ) : ℝ) ((b % m : ℤ) : ℝ) (a / n) (b / m)
  have ea : ((a % n : ℤ) : ℝ) + n * ((a / n : ℤ) : ℝ) = a := by exact_mod_cast ha
  have eb : ((b % m : ℤ) : ℝ) + m * ((b / m : ℤ) : ℝ) = b := by exact_mod_cast hb
  rw [ea, eb] at hper
  rw [hper]
  refine fraction_lt hn hm f A hA h00 h10 h01 _ _ ?_ ?_ ?_
  · rw [abs_of_nonneg (by exact_mod_cast ha0)]; exact_mod_cast ha1
  · rw [abs_of_nonneg (by exact_mod_cast hb0)]; exact_mod_cast hb1
  · rintro ⟨h1, h2⟩
    apply hab
    exact ⟨Int.dvd_of_emod_eq_zero (by exact_mod_cast h1), Int.dvd_of_emod_eq_zero (by exact_mod_cast h2)⟩

/-- The upsampled correlation around a whole-pixel estimate. -/
theorem refine_val {n m : ℕ} (f t : Fin n → Fin m → ℝ) (A : ℝ) (y x : ℕ) (h : Translated f t A y x)
    (s0 s1 d : ℤ) (h0 : (n : ℤ) ∣ s0 + y) (h1 : (m : ℤ) ∣ s1 + x) (region : ℤ) (kappa : ℝ) (up : Arr2 ℂ)
    (hup : computeUpsampledDft ((imageProduct ⟨n, m, f⟩ ⟨n, m, t⟩).map (starRingEnd ℂ)) [region, region] kappa
      [(d : ℝ) - s0 * kappa, (d : ℝ) - s1 * kappa] = .ok up) (v u : ℤ) (hv : 0 ≤ v ∧ v < region) (hu : 0 ≤ u ∧ u < region) :
    (up.px v u).map (starRingEnd ℂ) = some (phases (weight f A) (((v : ℝ) - d) / kappa) (((u : ℝ) - d) / kappa)) := by
  obtain ⟨hk, -, -, hval⟩ := upsampled_val _ _ _ _ _ _ _ hup
  rw [hval v u hv.1 hv.2 hu.1 hu.2]
  rw [Option.map_some]
  congr 1
  obtain ⟨k, hk0⟩ := h0
  obtain ⟨l, hl0⟩ := h1
  rw [← phases_periodic (weight f A) _ _ k l, map_sum]
  unfold phases
  refine Finset.sum_congr rfl fun p _ => ?_
  rw [map_sum]
  refine Finset.sum_congr rfl fun q _ => ?_
  rw [map_mul, conj_cis, neg_neg]
  have hpv := product_val f t A y x h p q
  have e1 : (starRingEnd ℂ) (((imageProduct ⟨n, m, f⟩ ⟨n, m, t⟩).map (starRingEnd ℂ)).val p q) =
      (weight f A p q : ℂ) * cis ((y : ℝ) * ((p : ℕ) : ℝ) / n + (x : ℝ) * ((q : ℕ) : ℝ) / m) := by
    rw [← hpv]
    show (starRingEnd ℂ) ((starRingEnd ℂ) _) = _
    rw [Complex.conj_conj]
  rw [e1, mul_assoc]
  congr 1
  have hn : 0 < n := Nat.lt_of_le_of_lt (Nat.zero_le _) p.isLt
  have hm : 0 < m := Nat.lt_of_le_of_lt (Nat.zero_le _) q.isLt
  have c1 := cis_fftfreq_pos n p hn y
  have c2 := cis_fftfreq_pos m q hm x
  rw [cis_add]
  have c1' : cis ((y : ℝ) * ((p : ℕ) : ℝ) / n) = cis ((y : ℝ) * fftfreqNum n p / n) := by
    have := c1.symm; push_cast at this; exact this
  have c2' : cis ((x : ℝ) * ((q : ℕ) : ℝ) / m) = cis ((x : ℝ) * fftfreqNum m q / m) := by
    have := c2.symm; push_cast at this; exact this
  rw [c1', c2', ← cis_add, ← cis_add]
  have ek : (n : ℝ) * k = s0 + y := by exact_mod_cast hk0.symm
  have el : (m : ℝ) * l = s1 + x := by exact_mod_cast hl0.symm
  rw [ek, el]
  show cis (_ + (((v : ℝ) - (d - s0 * kappa)) / kappa * fftfreqNum n p / n +
    ((u : ℝ) - (d - s1 * kappa)) / kappa * fftfreqNum m q / m)) = _
  congr 1
  field_simp
  ring

/-- The refinement keeps a whole-pixel estimate that is already right. -/
theorem refine_found {n m : ℕ} (hn : 2 ≤ n) (hm : 2 ≤ m) (f t : Fin n → Fin m → ℝ) (A : ℝ) (y x : ℕ)
    (h : Translated f t A y x) (s0 s1 : ℤ) (h0 : (n : ℤ) ∣ s0 + y) (h1 : (m : ℤ) ∣ s1 + x) (kappa : ℕ) (hk : 1 ≤ kappa) (pad : ℝ)
    (hp : 0 < pad) (hpn : pad ≤ n) (hpm : pad ≤ m)
    (hlt : ∀ a b : ℝ, |a| < n → |b| < m → ¬ (a = 0 ∧ b = 0) → ‖phases (weight f A) a b‖ < ‖phases (weight f A) 0 0‖) :
    refineShift (imageProduct ⟨n, m, f⟩ ⟨n, m, t⟩) kappa pad s0 s1 = .ok ((s0 : ℝ), (s1 : ℝ)) := by
  have hk' : (1 : ℝ) ≤ kappa := by exact_mod_cast hk
  have hk0 : (kappa : ℝ) ≠ 0 := by positivity
  have hround : ∀ s : ℤ, ((npRound ((s : ℝ) * kappa) : ℤ) : ℝ) / kappa = s := by
    intro s
    have : (s : ℝ) * kappa = ((s * kappa : ℤ) : ℝ) := by push_cast; ring
    rw [this, npRound_intCast]
    push_cast
    field_simp
  unfold refineShift
  simp only [hround]
  have hreg : 0 < ⌈(kappa : ℝ) * pad⌉ := Int.ceil_pos.mpr (by positivity)
  have hceil : ((⌈(kappa : ℝ) * pad⌉ : ℤ) : ℝ) < kappa * pad + 1 := Int.ceil_lt_add_one _
  generalize hR : ⌈(kappa : ℝ) * pad⌉ = R at hreg hceil
  rw [if_neg (by omega)]
  obtain ⟨up, hup⟩ : ∃ up, computeUpsampledDft ((imageProduct ⟨n, m, f⟩ ⟨n, m, t⟩).map (starRingEnd ℂ)) [R, R] (kappa : ℝ)
      [((R / 2 : ℤ) : ℝ) - s0 * kappa, ((R / 2 : ℤ) : ℝ) - s1 * kappa] = .ok up := by
    unfold computeUpsampledDft
    simp only
    rw [if_neg (by
      push Not
      refine ⟨hk0, ?_, ?_⟩
      · show n ≠ 0; omega
      · show m ≠ 0; omega)]
    exact ⟨_, rfl⟩
  rw [hup]
  simp only [res_ok_bind]
  obtain ⟨-, hnr, hnc, -⟩ := upsampled_val _ _ _ _ _ _ _ hup
  have hval := refine_val f t A y x h s0 s1 (R / 2) h0 h1 R kappa up hup
  obtain ⟨un, um, uf⟩ := up
  simp only at hnr hnc
  have hd0 : 0 ≤ R / 2 := by omega
  have hd1 : R / 2 < R := by omega
  have hnorm : ∀ (v : Fin un) (u : Fin um), ‖(starRingEnd ℂ) (uf v u)‖ =
      ‖phases (weight f A) ((((v : ℕ) : ℝ) - ((R / 2 : ℤ) : ℝ)) / kappa) ((((u : ℕ) : ℝ) - ((R / 2 : ℤ) : ℝ)) / kappa)‖ := by
    intro v u
    have hv := v.isLt
    have hu := u.isLt
    have := hval (v : ℕ) (u : ℕ) ⟨by omega, by omega⟩ ⟨by omega, by omega⟩
    have hpx := Arr2.px_val (⟨un, um, uf⟩ : Arr2 ℂ) v u
    rw [hpx, Option.map_some] at this
    have e := Option.some.inj this
    push_cast at e
    exact congrArg (fun z => ‖z‖) e
  have hmax := argmax2_unique (((⟨un, um, uf⟩ : Arr2 ℂ).map fun z => (starRingEnd ℂ) z /
      ((((imageProduct ⟨n, m, f⟩ ⟨n, m, t⟩).nr : ℂ) * (imageProduct ⟨n, m, f⟩ ⟨n, m, t⟩).nc) * (((kappa : ℝ) : ℝ) : ℂ) ^ 2)).map
      fun z => ‖z‖) ⟨(R / 2).toNat, show (R / 2).toNat < un by omega⟩ ⟨(R / 2).toNat, show (R / 2).toNat < um by omega⟩ ?_
  · rw [hmax]
    simp only
    have e : (((R / 2).toNat : ℕ) : ℝ) = ((R / 2 : ℤ) : ℝ) := by exact_mod_cast Int.toNat_of_nonneg hd0
    rw [e, sub_self, zero_div, add_zero, add_zero]
  · intro (v : Fin un) (u : Fin um) hne
    have hden : 0 < ‖((((imageProduct ⟨n, m, f⟩ ⟨n, m, t⟩).nr : ℂ) * (imageProduct ⟨n, m, f⟩ ⟨n, m, t⟩).nc) *
        (((kappa : ℝ) : ℝ) : ℂ) ^ 2)‖ := by
      rw [norm_pos_iff]
      refine mul_ne_zero (mul_ne_zero ?_ ?_) (pow_ne_zero _ ?_)
      · show (n : ℂ) ≠ 0
        exact_mod_cast (show n ≠ 0 by omega)
      · show (m : ℂ) ≠ 0
        exact_mod_cast (show m ≠ 0 by omega)
      · exact_mod_cast hk0
    show ‖(starRingEnd ℂ) (uf v u) / _‖ < ‖(starRingEnd ℂ) (uf (⟨(R / 2).toNat, by omega⟩ : Fin un) (⟨(R / 2).toNat, by omega⟩ : Fin um)) / _‖
    rw [norm_div, norm_div]
    refine div_lt_div_of_pos_right ?_ hden
    rw [hnorm, hnorm]
    have e : (((R / 2).toNat : ℕ) : ℝ) = ((R / 2 : ℤ) : ℝ) := by exact_mod_cast Int.toNat_of_nonneg hd0
    simp only
    rw [e, sub_self, zero_div]
    have hv : (v : ℕ) < un := v.isLt
    have hu : (u : ℕ) < um := u.isLt
    have bound : ∀ (w k : ℕ), (w : ℤ) < R → 2 ≤ k → pad ≤ k → |((w : ℝ) - ((R / 2 : ℤ) : ℝ)) / kappa| < k := by
      intro w k hw hk2 hpk
      rw [abs_div, abs_of_pos (by positivity : (0 : ℝ) < kappa), div_lt_iff₀ (by positivity)]
      have h2 : |(w : ℤ) - R / 2| * 2 ≤ R := by
        rcases abs_cases ((w : ℤ) - R / 2) with ⟨h, _⟩ | ⟨h, _⟩ <;> rw [h] <;> omega
      have h3 : |(w : ℝ) - ((R / 2 : ℤ) : ℝ)| * 2 ≤ R := by exact_mod_cast h2
      have hk2' : (2 : ℝ) ≤ k := by exact_mod_cast hk2
      nlinarith
    apply hlt _ _ (bound v n (by omega) hn hpn) (bound u m (by omega) hm hpm)
    rintro ⟨z1, z2⟩
    have fin : ∀ w : ℕ, ((w : ℝ) - ((R / 2 : ℤ) : ℝ)) / kappa = 0 → w = (R / 2).toNat := by
      intro w hw
      rw [div_eq_zero_iff] at hw
      have := hw.resolve_right hk0
      have h2 : (w : ℤ) - R / 2 = 0 := by exact_mod_cast this
      omega
    rcases hne with hc | hc
    · exact hc (Fin.ext (fin _ z1))
    · exact hc (Fin.ext (fin _ z2))

/-! ### The whole function -/

theorem psffit_found (T : Shift) (cfg : PsfConfig) {n m : ℕ} (hn : 0 < n) (hm : 0 < m) (f t : Fin n → Fin m → ℝ) (A : ℝ) (y x : ℕ)
    (h : Translated f t A y x)
    (hlt : ∀ a b : ℤ, ¬ ((n : ℤ) ∣ a ∧ (m : ℤ) ∣ b) → ‖phases (weight f A) (a : ℝ) (b : ℝ)‖ < ‖phases (weight f A) 0 0‖)
    (href : cfg.upsample ≠ 1 → ∀ s0 s1 : ℤ, (n : ℤ) ∣ s0 + y → (m : ℤ) ∣ s1 + x →
      refineShift (imageProduct ⟨n, m, f⟩ ⟨n, m, t⟩) cfg.upsample cfg.pad s0 s1 = .ok ((s0 : ℝ), (s1 : ℝ))) :
    ∃ s0 s1 : ℤ, SignedShift n y s0 ∧ SignedShift m x s1 ∧ psffit T cfg ⟨n, m, f⟩ ⟨n, m, t⟩ =
      .ok (((s0 : ℝ), (s1 : ℝ)), psfAmplitude (T.run s0 s1 ⟨n, m, f⟩) ⟨n, m, t⟩ cfg.thresh) := by
  have u0 := unwrap_signed n y hn
  have u1 := unwrap_signed m x hm
  refine ⟨_, _, u0, u1, ?_⟩
  have hc := coarse_found hn hm f t A y x h hlt
  unfold psffit
  rw [if_neg (by push Not; exact ⟨rfl, rfl⟩), if_neg (by push Not; exact ⟨show n ≠ 0 by omega, show m ≠ 0 by omega⟩)]
  simp only [hc]
  have fin : ∀ z w : ℤ, (Except.ok ((-(z : ℝ), -(w : ℝ)), psfAmplitude (T.run (-1 * (z : ℝ)) (-1 * (w : ℝ)) ⟨n, m, f⟩) ⟨n, m, t⟩
      cfg.thresh) : Res ((ℝ × ℝ) × ℝ)) = .ok ((((-z : ℤ) : ℝ), ((-w : ℤ) : ℝ)),
        psfAmplitude (T.run ((-z : ℤ) : ℝ) ((-w : ℤ) : ℝ) ⟨n, m, f⟩) ⟨n, m, t⟩ cfg.thresh) := by
    intro z w
    push_cast
    rw [neg_one_mul, neg_one_mul]
  by_cases hu : cfg.upsample ≠ 1
  · rw [if_pos hu, href hu _ _ ?_ ?_]
    · exact fin _ _
    · have := (dvd_neg (α := ℤ)).mpr u0.1
      rwa [show -(-(unwrapShift n (negIdx n y hn)) - (y : ℤ)) = unwrapShift n (negIdx n y hn) + y by ring] at this
    · have := (dvd_neg (α := ℤ)).mpr u1.1
      rwa [show -(-(unwrapShift m (negIdx m x hm)) - (x : ℤ)) = unwrapShift m (negIdx m x hm) + x by ring] at this
  · rw [if_neg hu]
    exact fin _ _

/-- **C54.** Without upsampling: a target that is a positive multiple of the source, translated cyclically by whole pixels, is found at
exactly that translation, for every source with a nonzero total that is not itself invariant under a translation. -/
theorem C54_pixel (T : Shift) (cfg : PsfConfig) (hcfg : cfg.upsample = 1) {n m : ℕ} (hn : 0 < n) (hm : 0 < m)
    (f t : Fin n → Fin m → ℝ) (A : ℝ) (hA : 0 < A) (y x : ℕ) (h : Translated f t A y x) (hsum : ∑ i, ∑ j, f i j ≠ 0)
    (hasym : Asymmetric f) :
    ∃ s0 s1 : ℤ, SignedShift n y s0 ∧ SignedShift m x s1 ∧
      ∃ amp, psffit T cfg ⟨n, m, f⟩ ⟨n, m, t⟩ = .ok (((s0 : ℝ), (s1 : ℝ)), amp) := by
  obtain ⟨s0, s1, h0, h1, hp⟩ := psffit_found T cfg hn hm f t A y x h (asymmetric_lt hn hm f A hA hsum hasym)
    (fun hne => absurd hcfg hne)
  exact ⟨s0, s1, h0, h1, _, hp⟩

/-- **C54.** With upsampling by any whole factor, over a region no wider than the image: the same, for every source whose transform
does not vanish at zero frequency and at the lowest frequency of either axis. -/
theorem C54_subpixel (T : Shift) (cfg : PsfConfig) (kappa : ℕ) (hk : 1 ≤ kappa) (hcfg : cfg.upsample = kappa) {n m : ℕ} (hn : 2 ≤ n)
    (hm : 2 ≤ m) (hp : 0 < cfg.pad) (hpn : cfg.pad ≤ n) (hpm : cfg.pad ≤ m)
    (f t : Fin n → Fin m → ℝ) (A : ℝ) (hA : 0 < A) (y x : ℕ) (h : Translated f t A y x)
    (h00 : dftAt (Arr2.toC ⟨n, m, f⟩) 0 0 ≠ 0) (h10 : dftAt (Arr2.toC ⟨n, m, f⟩) 1 0 ≠ 0) (h01 : dftAt (Arr2.toC ⟨n, m, f⟩) 0 1 ≠ 0) :
    ∃ s0 s1 : ℤ, SignedShift n y s0 ∧ SignedShift m x s1 ∧
      ∃ amp, psffit T cfg ⟨n, m, f⟩ ⟨n, m, t⟩ = .ok (((s0 : ℝ), (s1 : ℝ)), amp) := by
  have g00 : spec f ⟨0, by omega⟩ ⟨0, by omega⟩ ≠ 0 := by rw [spec_dftAt]; simpa using h00
  have g10 : spec f ⟨1, by omega⟩ ⟨0, by omega⟩ ≠ 0 := by rw [spec_dftAt]; simpa using h10
  have g01 : spec f ⟨0, by omega⟩ ⟨1, by omega⟩ ≠ 0 := by rw [spec_dftAt]; simpa using h01
  obtain ⟨s0, s1, e0, e1, hps⟩ := psffit_found T cfg (by omega) (by omega) f t A y x h (fraction_int_lt hn hm f A hA g00 g10 g01)
    (fun _ s0 s1 d0 d1 => by
      rw [hcfg]
      exact refine_found hn hm f t A y x h s0 s1 d0 d1 kappa hk cfg.pad hp hpn hpm (fraction_lt hn hm f A hA g00 g10 g01))
  exact ⟨s0, s1, e0, e1, _, hps⟩

theorem amax_eq (a : Arr2 ℝ) (M : ℝ) (h : IsPeak a M) : amax a = M := by
  obtain ⟨⟨i, j, hij⟩, hle⟩ := h
  have hs := argmax2_spec a (Nat.lt_of_le_of_lt (Nat.zero_le _) i.isLt) (Nat.lt_of_le_of_lt (Nat.zero_le _) j.isLt)
  have hv : amax a = a.val ⟨_, hs.row⟩ ⟨_, hs.col⟩ := Arr2.zext_val a ⟨_, hs.row⟩ ⟨_, hs.col⟩
  rw [hv]
  exact le_antisymm (hle _ _) (by rw [← hij]; exact hs.most i j)

/-- Expanding a sum of squared residuals. -/
theorem residual_expand {ι κ : Type} [Fintype ι] [Fintype κ] (P : ι → κ → Prop) [∀ i j, Decidable (P i j)] (t g : ι → κ → ℝ) (c : ℝ) :
    (∑ i, ∑ j, if P i j then (t i j - c * g i j) ^ 2 else 0) = (∑ i, ∑ j, if P i j then t i j * t i j else 0) -
      2 * c * (∑ i, ∑ j, if P i j then g i j * t i j else 0) + c ^ 2 * (∑ i, ∑ j, if P i j then g i j * g i j else 0) := by
  simp only [Finset.mul_sum, ← Finset.sum_add_distrib, ← Finset.sum_sub_distrib]
  refine Finset.sum_congr rfl fun i _ => Finset.sum_congr rfl fun j _ => ?_
  split_ifs <;> ring

open scoped Classical in
/-- **C54.** Whatever the images, the returned amplitude minimises the sum of squared differences between the target and the multiple of
the source shifted by the returned shift, over the target pixels above the given fraction of its peak. -/
theorem C54_amplitude (T : Shift) (cfg : PsfConfig) (src tgt : Arr2 ℝ) (y x amp : ℝ) (h : psffit T cfg src tgt = .ok ((y, x), amp))
    (M : ℝ) (hM : IsPeak tgt M)
    (hg : ∃ i j, cfg.thresh * M < tgt.val i j ∧ (T.run y x src).px (i : ℕ) (j : ℕ) ≠ some 0) (c : ℝ) :
    (∑ i, ∑ j, if cfg.thresh * M < tgt.val i j then (tgt.val i j - amp * (T.run y x src).zext (i : ℕ) (j : ℕ)) ^ 2 else 0) ≤
    ∑ i, ∑ j, if cfg.thresh * M < tgt.val i j then (tgt.val i j - c * (T.run y x src).zext (i : ℕ) (j : ℕ)) ^ 2 else 0 := by
  have hshape : src.nr = tgt.nr ∧ src.nc = tgt.nc := by
    unfold psffit at h
    by_contra hne
    rw [if_pos (by by_contra hc; push Not at hc; exact hne hc)] at h
    cases h
  have hamp : amp = psfAmplitude (T.run y x src) tgt cfg.thresh := by
    unfold psffit at h
    split at h
    · cases h
    split at h
    · cases h
    simp only at h
    have fin : ∀ e : Res (ℝ × ℝ), (e >>= fun s => (Except.ok ((-s.1, -s.2), psfAmplitude (T.run (-1 * s.1) (-1 * s.2) src) tgt cfg.thresh)
        : Res ((ℝ × ℝ) × ℝ))) = .ok ((y, x), amp) → amp = psfAmplitude (T.run y x src) tgt cfg.thresh := by
      intro e he
      cases e with
      | error e => cases he
      | ok s =>
        have := Except.ok.inj he
        have h1 := congrArg (fun z => z.1.1) this
        have h2 := congrArg (fun z => z.1.2) this
        have h3 := congrArg (fun z => z.2) this
        simp only at h1 h2 h3
        rw [← h3, ← h1, ← h2, neg_one_mul, neg_one_mul]
    split at h
    · exact fin _ h
    · exact fin _ h
  rw [residual_expand (fun i j => cfg.thresh * M < tgt.val i j), residual_expand (fun i j => cfg.thresh * M < tgt.val i j)]
  unfold psfAmplitude at hamp
  rw [amax_eq tgt M hM] at hamp
  have hD : 0 < ∑ i : Fin tgt.nr, ∑ j : Fin tgt.nc, if cfg.thresh * M < tgt.val i j then
      (T.run y x src).zext (i : ℕ) (j : ℕ) * (T.run y x src).zext (i : ℕ) (j : ℕ) else 0 := by
    obtain ⟨i, j, h1, h2⟩ := hg
    have hnn : ∀ (i : Fin tgt.nr) (j : Fin tgt.nc), 0 ≤ (if cfg.thresh * M < tgt.val i j then
      (T.run y x src).zext (i : ℕ) (j : ℕ) * (T.run y x src).zext (i : ℕ) (j : ℕ) else 0) := by
      intro i j
      split_ifs
      · exact mul_self_nonneg _
      · exact le_rfl
    refine Finset.sum_pos' (fun i _ => Finset.sum_nonneg fun j _ => hnn i j) ⟨i, Finset.mem_univ _, ?_⟩
    refine Finset.sum_pos' (fun j _ => hnn i j) ⟨j, Finset.mem_univ _, ?_⟩
    rw [if_pos h1]
    have : (T.run y x src).zext (i : ℕ) (j : ℕ) ≠ 0 := by
      intro hz
      apply h2
      have hb : (0 ≤ ((i : ℕ) : ℤ) ∧ ((i : ℕ) : ℤ) < (T.run y x src).nr) ∧ (0 ≤ ((j : ℕ) : ℤ) ∧ ((j : ℕ) : ℤ) < (T.run y x src).nc) := by
        rw [T.nr, T.nc, hshape.1, hshape.2]
        have := i.isLt
        have := j.isLt
        omega
      unfold Arr2.zext at hz
      rw [Arr2.px_of_inB _ hb] at hz ⊢
      exact congrArg some hz
    exact mul_self_pos.mpr this
  generalize (∑ i : Fin tgt.nr, ∑ j : Fin tgt.nc, if cfg.thresh * M < tgt.val i j then
      (T.run y x src).zext (i : ℕ) (j : ℕ) * (T.run y x src).zext (i : ℕ) (j : ℕ) else 0) = D at hD hamp ⊢
  generalize (∑ i : Fin tgt.nr, ∑ j : Fin tgt.nc, if cfg.thresh * M < tgt.val i j then
      (T.run y x src).zext (i : ℕ) (j : ℕ) * tgt.val i j else 0) = N at hamp ⊢
  have hN : N = amp * D := by rw [hamp]; field_simp
  rw [hN]
  nlinarith [mul_nonneg hD.le (sq_nonneg (c - amp))]

open scoped Classical in
/-- **C54.** The amplitude is exact when the image is found and none of its bright pixels has wrapped around the edge. -/
theorem C54_amplitude_exact (T : Shift) (cfg : PsfConfig) {n m : ℕ} (f t : Fin n → Fin m → ℝ) (A : ℝ) (hA : 0 < A) (y x : ℕ)
    (h : Translated f t A y x) (s0 s1 : ℤ) (h0 : SignedShift n y s0) (h1 : SignedShift m x s1) (amp : ℝ)
    (hfit : psffit T cfg ⟨n, m, f⟩ ⟨n, m, t⟩ = .ok (((s0 : ℝ), (s1 : ℝ)), amp)) (M : ℝ) (hM : IsPeak ⟨n, m, t⟩ M) (hM0 : 0 < M)
    (hth : cfg.thresh < 1)
    (hin : ∀ (i : Fin n) (j : Fin m), cfg.thresh * M < t i j → (0 ≤ (i : ℕ) - s0 ∧ (i : ℕ) - s0 < n) ∧ (0 ≤ (j : ℕ) - s1 ∧ (j : ℕ) - s1 < m)) :
    amp = A := by
  have hg : ∀ (i : Fin n) (j : Fin m), cfg.thresh * M < t i j →
      (T.run s0 s1 ⟨n, m, f⟩).px (i : ℕ) (j : ℕ) = some (t i j / A) := by
    intro i j hij
    obtain ⟨hi, hj⟩ := hin i j hij
    have hib := i.isLt
    have hjb := j.isLt
    rw [T.whole s0 s1 ⟨n, m, f⟩ _ _ ⟨⟨by omega, by exact_mod_cast hib⟩, ⟨by omega, by exact_mod_cast hjb⟩⟩]
    rw [Arr2.px_of_inB (⟨n, m, f⟩ : Arr2 ℝ) ⟨hi, hj⟩]
    simp only [Option.getD_some, Option.some.injEq]
    have hri : ∀ (k z : ℕ) (s : ℤ) (w : Fin k) (hs : (k : ℤ) ∣ s - z) (hw : 0 ≤ (w : ℕ) - s ∧ (w : ℕ) - s < k),
        rollIdx k z ⟨(((w : ℕ) : ℤ) - s).toNat, by omega⟩ = w := by
      intro k z s w hs hw
      apply Fin.ext
      obtain ⟨c, hc⟩ := rollIdx_val k z ⟨(((w : ℕ) : ℤ) - s).toNat, by omega⟩
      generalize rollIdx k z ⟨(((w : ℕ) : ℤ) - s).toNat, by omega⟩ = r at hc
      simp only at hc
      rw [Int.toNat_of_nonneg hw.1] at hc
      obtain ⟨e, he⟩ := hs
      have hd : (k : ℤ) ∣ ((r : ℕ) : ℤ) - (w : ℕ) := ⟨-e - c, by rw [hc]; linarith⟩
      have := r.isLt
      have := w.isLt
      have := Int.eq_zero_of_abs_lt_dvd hd (by rw [abs_lt]; omega)
      omega
    have := h ⟨(((i : ℕ) : ℤ) - s0).toNat, by omega⟩ ⟨(((j : ℕ) : ℤ) - s1).toNat, by omega⟩
    rw [hri n y s0 i h0.1 hi, hri m x s1 j h1.1 hj] at this
    rw [this]
    field_simp
  obtain ⟨⟨i0, j0, hpk⟩, hle⟩ := hM
  have hsel : cfg.thresh * M < t i0 j0 := by
    have : t i0 j0 = M := hpk
    rw [this]
    nlinarith
  have hne : (T.run s0 s1 ⟨n, m, f⟩).px (i0 : ℕ) (j0 : ℕ) ≠ some 0 := by
    rw [hg i0 j0 hsel]
    intro hz
    have := Option.some.inj hz
    have hp : t i0 j0 = M := hpk
    rw [hp] at this
    have : 0 < M / A := by positivity
    linarith
  have hmin := C54_amplitude T cfg ⟨n, m, f⟩ ⟨n, m, t⟩ s0 s1 amp hfit M ⟨⟨i0, j0, hpk⟩, hle⟩ ⟨i0, j0, hsel, hne⟩ A
  have hz : ∀ (i : Fin n) (j : Fin m), cfg.thresh * M < t i j → (T.run s0 s1 ⟨n, m, f⟩).zext (i : ℕ) (j : ℕ) = t i j / A := by
    intro i j hij
    unfold Arr2.zext
    rw [hg i j hij]
    rfl
  have hr : (∑ i : Fin n, ∑ j : Fin m, if cfg.thresh * M < t i j then
      (t i j - A * (T.run s0 s1 ⟨n, m, f⟩).zext (i : ℕ) (j : ℕ)) ^ 2 else 0) = 0 := by
    refine Finset.sum_eq_zero fun i _ => Finset.sum_eq_zero fun j _ => ?_
    split_ifs with hij
    · rw [hz i j hij, mul_div_cancel₀ _ hA.ne', sub_self]
      ring
    · rfl
  have hl : (t i0 j0 - amp * (T.run s0 s1 ⟨n, m, f⟩).zext (i0 : ℕ) (j0 : ℕ)) ^ 2 ≤ 0 := by
    have hnn : ∀ (i : Fin n) (j : Fin m), 0 ≤ (if cfg.thresh * M < t i j then
        (t i j - amp * (T.run s0 s1 ⟨n, m, f⟩).zext (i : ℕ) (j : ℕ)) ^ 2 else 0) := by
      intro i j
      split_ifs
      · exact sq_nonneg _
      · exact le_rfl
    have h1 := Finset.single_le_sum (fun j _ => hnn i0 j) (Finset.mem_univ j0)
    have h2 := Finset.single_le_sum (f := fun i => ∑ j : Fin m, if cfg.thresh * M < t i j then
        (t i j - amp * (T.run s0 s1 ⟨n, m, f⟩).zext (i : ℕ) (j : ℕ)) ^ 2 else 0)
      (fun i _ => Finset.sum_nonneg fun j _ => hnn i j) (Finset.mem_univ i0)
    rw [if_pos hsel] at h1
    exact h1.trans (h2.trans (hmin.trans hr.le))
  rw [hz i0 j0 hsel] at hl
  have hp : t i0 j0 = M := hpk
  rw [hp] at hl
  have h0 := pow_eq_zero_iff (two_ne_zero) |>.mp (le_antisymm hl (sq_nonneg _))
  have h3 : M * (A - amp) = 0 := by
    field_simp at h0
    linarith
  have := (mul_eq_zero.mp h3).resolve_left hM0.ne'
  linarith

/-! ### The hypotheses can be met -/

/-- A single bright pixel. -/
noncomputable def dot (n m a b : ℕ) (v : ℝ) (i : Fin n) (j : Fin m) : ℝ := if (i : ℕ) = a ∧ (j : ℕ) = b then v else 0

theorem dot_translated : Translated (dot 4 5 1 2 1) (dot 4 5 3 1 2) 2 2 4 := by
  intro i j
  unfold dot rollIdx
  fin_cases i <;> fin_cases j <;> norm_num

theorem dot_asymmetric : Asymmetric (dot 4 5 1 2 1) := by
  intro y x h
  have := h 1 2
  have e : dot 4 5 1 2 1 1 2 = 1 := by unfold dot; norm_num
  rw [e] at this
  unfold dot at this
  by_contra hc
  rw [if_neg] at this
  · exact zero_ne_one this
  · rintro ⟨h1, h2⟩
    apply hc
    have h1' : (1 + y) % 4 = 1 := h1
    have h2' : (2 + x) % 5 = 2 := h2
    omega

theorem dot_dft (p q : ℝ) : dftAt (Arr2.toC ⟨4, 5, dot 4 5 1 2 1⟩) p q ≠ 0 := by
  have : dftAt (Arr2.toC ⟨4, 5, dot 4 5 1 2 1⟩) p q = Complex.exp (-2 * Real.pi * Complex.I * (p * ((1 : ℕ) : ℝ) / (4 : ℕ) + q * ((2 : ℕ) : ℝ) / (5 : ℕ))) := by
    unfold dftAt Arr2.toC Arr2.map dot
    simp only [Fin.sum_univ_succ, Fin.sum_univ_zero]
    norm_num [Fin.val_succ]
  rw [this]
  exact Complex.exp_ne_zero _

/-- `C54_pixel` and `C54_subpixel`: a dot moved from (1, 2) to (3, 1) in a 4 x 5 image, that is by 2 (which is -2) rows and by 4 (which is
-1) columns. -/
example : ∃ s0 s1 : ℤ, SignedShift 4 2 s0 ∧ SignedShift 5 4 s1 ∧ ∃ amp,
    psffit Shift.nearest ⟨1, 1.5, 0.2⟩ ⟨4, 5, dot 4 5 1 2 1⟩ ⟨4, 5, dot 4 5 3 1 2⟩ = .ok (((s0 : ℝ), (s1 : ℝ)), amp) := by
  refine C54_pixel Shift.nearest ⟨1, 1.5, 0.2⟩ rfl (by omega) (by omega) _ _ 2 (by norm_num) 2 4 dot_translated ?_ dot_asymmetric
  unfold dot
  simp only [Fin.sum_univ_succ, Fin.sum_univ_zero]
  norm_num [Fin.val_succ]

example : ∃ s0 s1 : ℤ, SignedShift 4 2 s0 ∧ SignedShift 5 4 s1 ∧ ∃ amp,
    psffit Shift.nearest ⟨200, 1.5, 0.2⟩ ⟨4, 5, dot 4 5 1 2 1⟩ ⟨4, 5, dot 4 5 3 1 2⟩ = .ok (((s0 : ℝ), (s1 : ℝ)), amp) :=
  C54_subpixel Shift.nearest ⟨200, 1.5, 0.2⟩ 200 (by omega) (by norm_num) (by omega) (by omega) (by norm_num) (by norm_num) (by norm_num)
    _ _ 2 (by norm_num) 2 4 dot_translated (dot_dft 0 0) (dot_dft 1 0) (dot_dft 0 1)

/-- `SignedShift` determines the shift. -/
example : SignedShift 4 2 (-2) ∧ SignedShift 5 4 (-1) := by unfold SignedShift; omega

/-- `C54_amplitude` and `C54_amplitude_exact`: a dot moved from (1, 2) to (2, 3) and made twice as bright. -/
example : psffit Shift.nearest ⟨200, 1.5, 0.2⟩ ⟨4, 5, dot 4 5 1 2 1⟩ ⟨4, 5, dot 4 5 2 3 2⟩ = .ok ((1, 1), 2) := by
  have htr : Translated (dot 4 5 1 2 1) (dot 4 5 2 3 2) 2 1 1 := by
    intro i j
    unfold dot rollIdx
    fin_cases i <;> fin_cases j <;> norm_num
  obtain ⟨s0, s1, h0, h1, amp, h⟩ := C54_subpixel Shift.nearest ⟨200, 1.5, 0.2⟩ 200 (by omega) (by norm_num) (by omega) (by omega)
    (by norm_num) (by norm_num) (by norm_num) _ _ 2 (by norm_num) 1 1 htr (dot_dft 0 0) (dot_dft 1 0) (dot_dft 0 1)
  have hamp := C54_amplitude_exact Shift.nearest ⟨200, 1.5, 0.2⟩ _ _ 2 (by norm_num) 1 1 htr s0 s1 h0 h1 amp h 2 ⟨⟨2, 3, by
      show dot 4 5 2 3 2 2 3 = 2
      unfold dot; norm_num⟩, fun i j => by
      show dot 4 5 2 3 2 i j ≤ 2
      unfold dot; split <;> norm_num⟩ (by norm_num) (by norm_num) (fun i j hij => by
      unfold dot at hij
      split at hij
      · next hc =>
        obtain ⟨e1, e2⟩ := hc
        unfold SignedShift at h0 h1
        omega
      · norm_num at hij)
  have e0 : s0 = 1 := by unfold SignedShift at h0; omega
  have e1 : s1 = 1 := by unfold SignedShift at h1; omega
  rw [h, hamp, e0, e1]
  norm_num

end Coralign.Props
