import Verif.Model.Mft
import Verif.Props.Fft
import Mathlib.Tactic.Positivity

/-!
# Properties C16 and C18: matrix Fourier transforms
-/

namespace Coralign.Props

open Coralign

/-- Specification: arguments every transform accepts. -/
structure MftArgs (o0 o1 : ℤ) (ppl ppp : ℝ) : Prop where
  rows : 0 < o0
  cols : 0 < o1
  lod : 0 < ppl
  pup : 0 < ppp

/-- Signed offset of index `i` from the centre pixel of an axis of length `n`. -/
def offc (n i : ℕ) : ℤ := (i : ℤ) - (n / 2 : ℕ)

/-- Specification: the Fourier sum a forward transform should evaluate: sample `(p, q)` of the focal plane is
`1/pixperpupil² Σ e[i, j] exp(-2πi (Δp Δi + Δq Δj)/(pixperlod pixperpupil))`, with `Δ` offsets from centre pixels. -/
noncomputable def mftSum (e : Arr2 ℂ) (o0 o1 : ℕ) (ppl ppp : ℝ) (p q : ℕ) : ℂ :=
  (∑ i : Fin e.nr, ∑ j : Fin e.nc, e.val i j *
    cis (-(((offc o0 p : ℝ) * (offc e.nr i : ℝ) + (offc o1 q : ℝ) * (offc e.nc j : ℝ)) / (ppl * ppp)))) / (ppp : ℂ) ^ 2

theorem mftChecks_ok {o0 o1 : ℤ} {ppl ppp : ℝ} (h : MftArgs o0 o1 ppl ppp) : mftChecks o0 o1 ppl ppp = .ok () := by
  unfold mftChecks
  rw [if_neg (not_le.mpr h.lod), if_neg (not_le.mpr h.pup), if_neg (not_le.mpr h.rows), if_neg (not_le.mpr h.cols)]

theorem mftInterval_ok (n : ℤ) (w : ℝ) (hn : 0 < n) (hw : 0 < w) :
    mftInterval ((n : ℝ) / w) n = .ok (fun k => ((-(n / 2) + k : ℤ) : ℝ) * (1 / w), 1 / w) := by
  have hn' : (0 : ℝ) < n := by exact_mod_cast hn
  unfold mftInterval
  rw [if_neg (not_le.mpr (by positivity)), if_neg (not_le.mpr hn)]
  have : (n : ℝ) / w / n = 1 / w := by field_simp
  simp only [this]

theorem mftInterval_nat (n : ℕ) (w : ℝ) (hn : 0 < n) (hw : 0 < w) :
    mftInterval ((n : ℝ) / w) n = .ok (fun k => (offc n k : ℝ) * (1 / w), 1 / w) := by
  have := mftInterval_ok n w (by exact_mod_cast hn) hw
  simp only [Int.cast_natCast] at this
  rw [this]
  congr 2
  funext k
  congr 1
  unfold offc
  push_cast
  ring_nf

theorem mftInterval_int (n : ℤ) (w : ℝ) (hn : 0 < n) (hw : 0 < w) :
    mftInterval ((n : ℝ) / w) n = .ok (fun k => (offc n.toNat k : ℝ) * (1 / w), 1 / w) := by
  obtain ⟨m, rfl⟩ : ∃ m : ℕ, n = m := ⟨n.toNat, by omega⟩
  have := mftInterval_nat m w (by omega) hw
  simpa using this

theorem mftProduct_val (s : ℝ) (e : Arr2 ℂ) (o0 o1 : ℕ) (row col rowpp colpp : ℕ → ℝ) (dr dc : ℝ) (p : Fin o0) (q : Fin o1) :
    (mftProduct s e o0 o1 row col rowpp colpp dr dc).val p q =
      (∑ i : Fin e.nr, ∑ j : Fin e.nc, e.val i j * cis (s * (rowpp p * row i + col j * colpp q))) * (dr * dc) := by
  unfold mftProduct
  simp only
  rw [mul_assoc]
  congr 1
  rw [Finset.sum_comm]
  refine Finset.sum_congr rfl fun j _ => ?_
  rw [Finset.sum_mul]
  refine Finset.sum_congr rfl fun i _ => ?_
  rw [mul_add, cis_add]; ring

/-- **C18.** `do_mft` evaluates the centred Fourier sum for every shape, and returns an array of the requested shape. -/
theorem C18_mft_sum (e : Arr2 ℂ) (o0 o1 : ℤ) (ppl ppp : ℝ) (h : MftArgs o0 o1 ppl ppp) (hr : 0 < e.nr) (hc : 0 < e.nc) :
    doMft e o0 o1 ppl ppp = .ok (Arr2.ofFn o0.toNat o1.toNat fun p q => mftSum e o0.toNat o1.toNat ppl ppp p q) := by
  unfold doMft
  rw [mftChecks_ok h]
  simp only [bind, Except.bind]
  rw [mftInterval_nat _ _ hr h.pup, mftInterval_nat _ _ hc h.pup, mftInterval_int _ _ h.rows h.lod,
    mftInterval_int _ _ h.cols h.lod]
  simp only [Except.ok.injEq]
  unfold Arr2.ofFn
  have hl := h.lod.ne'
  have hp := h.pup.ne'
  have : ∀ (a b : Arr2 ℂ), a.nr = b.nr → a.nc = b.nc →
      (∀ (i : Fin a.nr) (j : Fin a.nc) (i' : Fin b.nr) (j' : Fin b.nc), (i : ℕ) = i' → (j : ℕ) = j' → a.val i j = b.val i' j') → a = b := by
    rintro ⟨n, m, v⟩ ⟨n', m', v'⟩ h1 h2 h3
    simp only at h1 h2
    subst h1; subst h2
    congr 1
    funext i j
    exact h3 i j i j rfl rfl
  refine this _ _ rfl rfl ?_
  intro p q p' q' h1 h2
  refine (mftProduct_val _ _ _ _ _ _ _ _ _ _ p q).trans ?_
  simp only [mftSum]
  rw [div_eq_mul_inv]
  congr 1
  · refine Finset.sum_congr rfl fun i _ => Finset.sum_congr rfl fun j _ => ?_
    rw [← h1, ← h2]
    congr 2
    field_simp
  · push_cast
    field_simp

/-- Specification: the sum an inverse transform should evaluate. -/
noncomputable def imftSum (e : Arr2 ℂ) (o0 o1 : ℕ) (ppl ppp : ℝ) (p q : ℕ) : ℂ :=
  (∑ i : Fin e.nr, ∑ j : Fin e.nc, e.val i j *
    cis (((offc o0 p : ℝ) * (offc e.nr i : ℝ) + (offc o1 q : ℝ) * (offc e.nc j : ℝ)) / (ppl * ppp))) / (ppl : ℂ) ^ 2

/-- **C18.** `do_imft` evaluates the inverse sum for every shape. -/
theorem C18_imft_sum (e : Arr2 ℂ) (o0 o1 : ℤ) (ppl ppp : ℝ) (h : MftArgs o0 o1 ppl ppp) (hr : 0 < e.nr) (hc : 0 < e.nc) :
    doImft e o0 o1 ppl ppp = .ok (Arr2.ofFn o0.toNat o1.toNat fun p q => imftSum e o0.toNat o1.toNat ppl ppp p q) := by
  unfold doImft
  rw [mftChecks_ok h]
  simp only [bind, Except.bind]
  rw [mftInterval_nat _ _ hr h.lod, mftInterval_nat _ _ hc h.lod, mftInterval_int _ _ h.rows h.pup,
    mftInterval_int _ _ h.cols h.pup]
  simp only [Except.ok.injEq]
  unfold Arr2.ofFn
  have hl := h.lod.ne'
  have hp := h.pup.ne'
  have : ∀ (a b : Arr2 ℂ), a.nr = b.nr → a.nc = b.nc →
      (∀ (i : Fin a.nr) (j : Fin a.nc) (i' : Fin b.nr) (j' : Fin b.nc), (i : ℕ) = i' → (j : ℕ) = j' → a.val i j = b.val i' j') → a = b := by
    rintro ⟨n, m, v⟩ ⟨n', m', v'⟩ h1 h2 h3
    simp only at h1 h2
    subst h1; subst h2
    congr 1
    funext i j
    exact h3 i j i j rfl rfl
  refine this _ _ rfl rfl ?_
  intro p q p' q' h1 h2
  refine (mftProduct_val _ _ _ _ _ _ _ _ _ _ p q).trans ?_
  simp only [imftSum]
  rw [div_eq_mul_inv]
  congr 1
  · refine Finset.sum_congr rfl fun i _ => Finset.sum_congr rfl fun j _ => ?_
    rw [← h1, ← h2]
    congr 2
    field_simp
  · push_cast
    field_simp

/-- **C18.** Zero-size input raises `TypeError`, and so does any non-positive sampling or output size. -/
theorem C18_mft_rejects (e : Arr2 ℂ) (o0 o1 : ℤ) (ppl ppp : ℝ)
    (h : ¬ (MftArgs o0 o1 ppl ppp ∧ 0 < e.nr ∧ 0 < e.nc)) : doMft e o0 o1 ppl ppp = .error .typeError := by
  by_cases ha : MftArgs o0 o1 ppl ppp
  · unfold doMft
    rw [mftChecks_ok ha]
    simp only [bind, Except.bind]
    by_cases hr : 0 < e.nr
    · rw [mftInterval_nat _ _ hr ha.pup]
      have hc : e.nc = 0 := by
        by_contra hc; exact h ⟨ha, hr, Nat.pos_of_ne_zero hc⟩
      simp [hc, mftInterval]
    · have hr0 : e.nr = 0 := by omega
      simp [hr0, mftInterval]
  · have hc : mftChecks o0 o1 ppl ppp = .error .typeError := by
      unfold mftChecks
      split; · rfl
      split; · rfl
      split; · rfl
      split; · rfl
      next h1 h2 h3 h4 =>
      exact absurd ⟨not_le.mp h3, not_le.mp h4, not_le.mp h1, not_le.mp h2⟩ ha
    unfold doMft
    rw [hc]
    rfl

/-- Elementwise `c*a + b` for arrays of one shape (given as functions on one index set). -/
def axpy (c : ℂ) (n m : ℕ) (f g : Fin n → Fin m → ℂ) : Arr2 ℂ := ⟨n, m, fun i j => c * f i j + g i j⟩

theorem mftProduct_linear (s : ℝ) (c : ℂ) (n m : ℕ) (f g : Fin n → Fin m → ℂ) (o0 o1 : ℕ) (row col rowpp colpp : ℕ → ℝ)
    (dr dc : ℝ) :
    mftProduct s (axpy c n m f g) o0 o1 row col rowpp colpp dr dc =
      axpy c o0 o1 (mftProduct s ⟨n, m, f⟩ o0 o1 row col rowpp colpp dr dc).val
        (mftProduct s ⟨n, m, g⟩ o0 o1 row col rowpp colpp dr dc).val := by
  have e : mftProduct s (axpy c n m f g) o0 o1 row col rowpp colpp dr dc =
    ⟨o0, o1, fun p q => (mftProduct s (axpy c n m f g) o0 o1 row col rowpp colpp dr dc).val p q⟩ := rfl
  rw [e]
  unfold axpy
  congr 1
  funext p q
  rw [mftProduct_val, mftProduct_val, mftProduct_val, ← mul_assoc c, ← add_mul, Finset.mul_sum, ← Finset.sum_add_distrib]
  congr 1
  refine Finset.sum_congr rfl fun i _ => ?_
  rw [Finset.mul_sum, ← Finset.sum_add_distrib]
  refine Finset.sum_congr rfl fun j _ => ?_
  ring

/-- **C18.** `do_mft` and `do_imft` are linear: whenever the transforms of two fields of one shape exist, the transform of
`c*f + g` is the same combination. -/
theorem C18_linear (c : ℂ) (n m : ℕ) (f g : Fin n → Fin m → ℂ) (o0 o1 : ℤ) (ppl ppp : ℝ)
    (T : Arr2 ℂ → ℤ → ℤ → ℝ → ℝ → Res (Arr2 ℂ)) (hT : T = doMft ∨ T = doImft) :
    (∃ F G : Fin o0.toNat → Fin o1.toNat → ℂ, T ⟨n, m, f⟩ o0 o1 ppl ppp = .ok ⟨o0.toNat, o1.toNat, F⟩ ∧
      T ⟨n, m, g⟩ o0 o1 ppl ppp = .ok ⟨o0.toNat, o1.toNat, G⟩ ∧
      T (axpy c n m f g) o0 o1 ppl ppp = .ok (axpy c o0.toNat o1.toNat F G)) ∨
    (T ⟨n, m, f⟩ o0 o1 ppl ppp = .error .typeError ∧ T ⟨n, m, g⟩ o0 o1 ppl ppp = .error .typeError ∧
      T (axpy c n m f g) o0 o1 ppl ppp = .error .typeError) := by
  have chk : mftChecks o0 o1 ppl ppp = .ok () ∨ mftChecks o0 o1 ppl ppp = .error .typeError := by
    unfold mftChecks; split_ifs <;> simp
  have itv : ∀ w k, (∃ x, mftInterval w k = .ok x) ∨ mftInterval w k = .error .typeError := by
    intro w k; unfold mftInterval; split_ifs <;> simp
  rcases hT with rfl | rfl
  · unfold doMft
    rcases chk with hk | hk
    · rw [hk]
      simp only [bind, Except.bind, axpy]
      rcases itv (n / ppp) n with ⟨⟨r, dr⟩, h1⟩ | h1
      · rcases itv (m / ppp) m with ⟨⟨r2, dr2⟩, h2⟩ | h2
        · rcases itv (o0 / ppl) o0 with ⟨⟨r3, dr3⟩, h3⟩ | h3
          · rcases itv (o1 / ppl) o1 with ⟨⟨r4, dr4⟩, h4⟩ | h4
            · left
              rw [h1, h2, h3, h4]
              exact ⟨_, _, rfl, rfl, congrArg Except.ok (mftProduct_linear (-1) c n m f g _ _ _ _ _ _ _ _)⟩
            · right; rw [h1, h2, h3, h4]; exact ⟨rfl, rfl, rfl⟩
          · right; rw [h1, h2, h3]; exact ⟨rfl, rfl, rfl⟩
        · right; rw [h1, h2]; exact ⟨rfl, rfl, rfl⟩
      · right; rw [h1]; exact ⟨rfl, rfl, rfl⟩
    · right; rw [hk]; exact ⟨rfl, rfl, rfl⟩
  · unfold doImft
    rcases chk with hk | hk
    · rw [hk]
      simp only [bind, Except.bind, axpy]
      rcases itv (n / ppl) n with ⟨⟨r, dr⟩, h1⟩ | h1
      · rcases itv (m / ppl) m with ⟨⟨r2, dr2⟩, h2⟩ | h2
        · rcases itv (o0 / ppp) o0 with ⟨⟨r3, dr3⟩, h3⟩ | h3
          · rcases itv (o1 / ppp) o1 with ⟨⟨r4, dr4⟩, h4⟩ | h4
            · left
              rw [h1, h2, h3, h4]
              exact ⟨_, _, rfl, rfl, congrArg Except.ok (mftProduct_linear 1 c n m f g _ _ _ _ _ _ _ _)⟩
            · right; rw [h1, h2, h3, h4]; exact ⟨rfl, rfl, rfl⟩
          · right; rw [h1, h2, h3]; exact ⟨rfl, rfl, rfl⟩
        · right; rw [h1, h2]; exact ⟨rfl, rfl, rfl⟩
      · right; rw [h1]; exact ⟨rfl, rfl, rfl⟩
    · right; rw [hk]; exact ⟨rfl, rfl, rfl⟩

theorem offc_ctr (n : ℕ) (i : Fin n) : ((offc n i : ℤ) : ℝ) = ctr n i := by
  unfold offc ctr; push_cast; rfl

/-- **C18.** At matched sampling (`N×N` field and output, `pixperlod * pixperpupil = N`) `do_mft` is the centred FFT
divided by `pixperpupil²`. -/
theorem C18_matched_fft (N : ℕ) (hN : 0 < N) (v : Fin N → Fin N → ℂ) (ppl ppp : ℝ) (hl : 0 < ppl) (hp : 0 < ppp)
    (hmatch : ppl * ppp = N) :
    doMft ⟨N, N, v⟩ N N ppl ppp = .ok ((doFft ⟨N, N, v⟩).map fun z => z / (ppp : ℂ) ^ 2) := by
  rw [C18_mft_sum _ _ _ _ _ ⟨by omega, by omega, hl, hp⟩ hN hN, doFft_eq]
  congr 1
  unfold Arr2.ofFn Arr2.map
  simp only [Int.toNat_natCast]
  congr 1
  funext p q
  rw [mul3_apply]
  unfold mftSum
  congr 1
  refine Finset.sum_congr rfl fun i _ => Finset.sum_congr rfl fun j _ => ?_
  simp only [fmat, Matrix.of_apply, offc_ctr, hmatch]
  rw [mul_comm (cis _) (v i j), mul_assoc, ← cis_add]
  congr 2
  have : (N : ℝ) ≠ 0 := by positivity
  field_simp
  ring

/-- `do_imft` at matched sampling in matrix form. -/
theorem imft_matched (N : ℕ) (hN : 0 < N) (v : Fin N → Fin N → ℂ) (ppl ppp : ℝ) (hl : 0 < ppl) (hp : 0 < ppp)
    (hmatch : ppl * ppp = N) :
    doImft ⟨N, N, v⟩ N N ppl ppp = .ok ⟨N, N, fun p q =>
      ((fmat N).conjTranspose * Matrix.of v * (fmat N).conjTranspose) p q / (ppl : ℂ) ^ 2⟩ := by
  unfold doImft
  rw [mftChecks_ok ⟨by omega, by omega, hl, hp⟩]
  simp only [bind, Except.bind]
  rw [mftInterval_nat _ _ hN hl]
  have h2 := mftInterval_nat _ _ hN hp
  simp only [Int.cast_natCast]
  rw [h2]
  simp only [Except.ok.injEq, Int.toNat_natCast]
  have e : ∀ row col rowpp colpp dr dc, mftProduct 1 ⟨N, N, v⟩ N N row col rowpp colpp dr dc =
    ⟨N, N, fun p q => (mftProduct 1 ⟨N, N, v⟩ N N row col rowpp colpp dr dc).val p q⟩ := fun _ _ _ _ _ _ => rfl
  rw [e]
  congr 1
  funext p q
  rw [mftProduct_val, mul3_apply, div_eq_mul_inv]
  congr 1
  · refine Finset.sum_congr rfl fun i _ => Finset.sum_congr rfl fun j _ => ?_
    simp only [fmat, Matrix.of_apply, Matrix.conjTranspose_apply, RCLike.star_def, conj_cis, neg_neg, offc_ctr]
    rw [mul_comm (cis (ctr N i * ctr N p / N)) (v i j), mul_assoc (v i j), ← cis_add]
    congr 2
    rw [← hmatch]
    have := hl.ne'
    have := hp.ne'
    field_simp
  · push_cast
    have := hl.ne'
    field_simp

/-- **C18.** At matched sampling `do_mft` inverts `do_imft`. -/
theorem C18_mft_inverts_imft (N : ℕ) (hN : 0 < N) (v : Fin N → Fin N → ℂ) (ppl ppp : ℝ) (hl : 0 < ppl) (hp : 0 < ppp)
    (hmatch : ppl * ppp = N) :
    (doImft ⟨N, N, v⟩ N N ppl ppp).bind (fun f => doMft f N N ppl ppp) = .ok ⟨N, N, v⟩ := by
  rw [imft_matched N hN v ppl ppp hl hp hmatch]
  simp only [Except.bind]
  rw [C18_matched_fft N hN _ ppl ppp hl hp hmatch, doFft_eq]
  simp only [Arr2.map]
  congr 1
  congr 1
  funext p q
  have hl' : (ppl : ℂ) ≠ 0 := by exact_mod_cast hl.ne'
  have hp' : (ppp : ℂ) ≠ 0 := by exact_mod_cast hp.ne'
  have key := fft_ifft_mat N N hN hN (Matrix.of v)
  have e1 : (Matrix.of fun i j => ((fmat N).conjTranspose * Matrix.of v * (fmat N).conjTranspose) i j / (ppl : ℂ) ^ 2)
      = (1 / (ppl : ℂ) ^ 2) • ((fmat N).conjTranspose * Matrix.of v * (fmat N).conjTranspose) := by
    ext i j
    simp only [Matrix.of_apply, Matrix.smul_apply, smul_eq_mul]
    ring
  rw [e1, Matrix.mul_smul, Matrix.smul_mul, Matrix.smul_apply, smul_eq_mul]
  have key2 := congrFun (congrFun key p) q
  simp only [Matrix.mul_smul, Matrix.smul_mul] at key2
  rw [Matrix.smul_apply, smul_eq_mul] at key2
  simp only [Matrix.of_apply] at key2
  rw [← key2]
  have hm : (ppl : ℂ) * ppp = N := by exact_mod_cast hmatch
  rw [← hm]
  generalize (fmat N * ((fmat N).conjTranspose * Matrix.of v * (fmat N).conjTranspose) * fmat N) p q = z
  field_simp

/-- **C18.** At matched sampling `do_imft` inverts `do_mft`. -/
theorem C18_imft_inverts_mft (N : ℕ) (hN : 0 < N) (v : Fin N → Fin N → ℂ) (ppl ppp : ℝ) (hl : 0 < ppl) (hp : 0 < ppp)
    (hmatch : ppl * ppp = N) :
    (doMft ⟨N, N, v⟩ N N ppl ppp).bind (fun f => doImft f N N ppl ppp) = .ok ⟨N, N, v⟩ := by
  rw [C18_matched_fft N hN v ppl ppp hl hp hmatch, doFft_eq]
  simp only [Except.bind, Arr2.map]
  rw [imft_matched N hN _ ppl ppp hl hp hmatch]
  congr 1
  congr 1
  funext p q
  have hl' : (ppl : ℂ) ≠ 0 := by exact_mod_cast hl.ne'
  have hp' : (ppp : ℂ) ≠ 0 := by exact_mod_cast hp.ne'
  have key := ifft_fft_mat N N hN hN (Matrix.of v)
  have e1 : (Matrix.of fun i j => (fmat N * Matrix.of v * fmat N) i j / (ppp : ℂ) ^ 2)
      = (1 / (ppp : ℂ) ^ 2) • (fmat N * Matrix.of v * fmat N) := by
    ext i j
    simp only [Matrix.of_apply, Matrix.smul_apply, smul_eq_mul]
    ring
  rw [e1, Matrix.mul_smul, Matrix.smul_mul, Matrix.smul_apply, smul_eq_mul]
  have key2 := congrFun (congrFun key p) q
  rw [Matrix.smul_apply, smul_eq_mul] at key2
  simp only [Matrix.of_apply] at key2
  rw [← key2]
  have hm : (ppl : ℂ) * ppp = N := by exact_mod_cast hmatch
  rw [← hm]
  generalize ((fmat N).conjTranspose * (fmat N * Matrix.of v * fmat N) * (fmat N).conjTranspose) p q = z
  field_simp

/-! ### C16 -/

/-- Specification: `full` is `e` placed with its first pixel at `(y0, x0)` and zeros elsewhere. -/
def PlacedAt (e full : Arr2 ℂ) (y0 x0 : ℕ) : Prop :=
  y0 + e.nr ≤ full.nr ∧ x0 + e.nc ≤ full.nc ∧
    ∀ i j : ℤ, (0 ≤ i ∧ i < full.nr) ∧ (0 ≤ j ∧ j < full.nc) →
      full.px i j = some ((e.px (i - y0) (j - x0)).getD 0)

theorem sum_window {M : Type} [AddCommMonoid M] (P y n : ℕ) (h : y + n ≤ P) (f : ℕ → M)
    (hf : ∀ i, i < P → ¬ (y ≤ i ∧ i < y + n) → f i = 0) :
    ∑ i : Fin P, f i = ∑ k : Fin n, f (y + k) := by
  rw [Fin.sum_univ_eq_sum_range f P, Fin.sum_univ_eq_sum_range (fun k => f (y + k)) n]
  obtain ⟨r, rfl⟩ : ∃ r, P = y + (n + r) := ⟨P - y - n, by omega⟩
  rw [Finset.sum_range_add, Finset.sum_range_add]
  rw [Finset.sum_eq_zero (s := Finset.range y) (fun i hi => by
    rw [Finset.mem_range] at hi; exact hf i (by omega) (by omega))]
  rw [Finset.sum_eq_zero (s := Finset.range r) (fun i hi => by
    rw [Finset.mem_range] at hi; exact hf _ (by omega) (by omega))]
  simp

/-- **C16.** The off-centre transform of a cropped field equals the ordinary transform of the full pupil array in which
that crop is surrounded by zeros, for every output shape and sampling. -/
theorem C16_offcenter_equals_embedded (e full : Arr2 ℂ) (o0 o1 : ℤ) (ppl ppp : ℝ) (y0 x0 : ℕ)
    (hr : 0 < full.nr) (hc : 0 < full.nc) (hp : PlacedAt e full y0 x0) :
    doOffcenterMft e o0 o1 ppl ppp full.nr full.nc y0 x0 = doMft full o0 o1 ppl ppp := by
  unfold doOffcenterMft doMft
  have chk : mftChecks o0 o1 ppl ppp = .ok () ∨ mftChecks o0 o1 ppl ppp = .error .typeError := by
    unfold mftChecks; split_ifs <;> simp
  rcases chk with hk | hk
  · rw [hk]
    simp only [bind, Except.bind]
    rw [if_neg (by omega), if_neg (by omega)]
    simp only [Int.cast_natCast]
    cases mftInterval (full.nr / ppp) full.nr with
    | error e => rfl
    | ok r =>
    simp only
    cases mftInterval (full.nc / ppp) full.nc with
    | error e => rfl
    | ok c =>
    simp only
    cases mftInterval (o0 / ppl) o0 with
    | error e => rfl
    | ok rp =>
    simp only
    cases mftInterval (o1 / ppl) o1 with
    | error e => rfl
    | ok cp =>
    simp only [Int.toNat_natCast]
    obtain ⟨h1, h2, h3⟩ := hp
    rw [if_neg (by unfold cropLen; omega)]
    congr 1
    have et : ∀ (s : ℝ) (e : Arr2 ℂ) (o0 o1 : ℕ) row col rowpp colpp dr dc, mftProduct s e o0 o1 row col rowpp colpp dr dc =
      ⟨o0, o1, fun p q => (mftProduct s e o0 o1 row col rowpp colpp dr dc).val p q⟩ := fun _ _ _ _ _ _ _ _ _ _ => rfl
    rw [et, et (-1) full]
    congr 1
    funext p q
    rw [mftProduct_val, mftProduct_val]
    congr 1
    -- express both sums through the zero-extended values
    have hfull : ∀ (i : Fin full.nr) (j : Fin full.nc), full.val i j = (e.px (((i : ℕ) : ℤ) - y0) (((j : ℕ) : ℤ) - x0)).getD 0 := by
      intro i j
      have := h3 (i : ℕ) (j : ℕ) (by omega)
      rw [Arr2.px_val] at this
      exact Option.some.inj this
    have he : ∀ (i : Fin e.nr) (j : Fin e.nc), e.val i j = (e.px (((i : ℕ) : ℤ)) (((j : ℕ) : ℤ))).getD 0 := by
      intro i j; rw [Arr2.px_val]; rfl
    simp only [hfull, he]
    rw [sum_window full.nr y0 e.nr h1 (fun i => ∑ j : Fin full.nc,
      (e.px ((i : ℤ) - y0) (((j : ℕ) : ℤ) - x0)).getD 0 * cis (-1 * (rp.1 p * r.1 i + c.1 j * cp.1 q)))]
    · refine Finset.sum_congr rfl fun i _ => ?_
      rw [sum_window full.nc x0 e.nc h2 (fun j =>
        (e.px (((y0 + (i : ℕ) : ℕ) : ℤ) - y0) ((j : ℤ) - x0)).getD 0 * cis (-1 * (rp.1 p * r.1 (y0 + i) + c.1 j * cp.1 q)))]
      · refine Finset.sum_congr rfl fun j _ => ?_
        push_cast
        simp only [add_sub_cancel_left]
      · intro j hj hne
        rw [Arr2.px_of_not_inB e (by omega)]
        simp
    · intro i hi hne
      refine Finset.sum_eq_zero fun j _ => ?_
      rw [Arr2.px_of_not_inB e (by omega)]
      simp
  · rw [hk]; rfl

/-- **C16.** A crop that does not fit at the given corner is rejected with `ValueError`. -/
theorem C16_offcenter_rejects (e : Arr2 ℂ) (o0 o1 : ℤ) (ppl ppp : ℝ) (P0 P1 y0 x0 : ℕ) (h : MftArgs o0 o1 ppl ppp)
    (hr : 0 < P0) (hc : 0 < P1) (hnr : 0 < e.nr) (hnc : 0 < e.nc) (hfit : P0 < y0 + e.nr ∨ P1 < x0 + e.nc) :
    doOffcenterMft e o0 o1 ppl ppp P0 P1 y0 x0 = .error .valueError := by
  unfold doOffcenterMft
  rw [mftChecks_ok h]
  simp only [bind, Except.bind]
  rw [if_neg (by omega), if_neg (by omega)]
  simp only [Int.cast_natCast]
  rw [mftInterval_nat _ _ hr h.pup, mftInterval_nat _ _ hc h.pup, mftInterval_int _ _ h.rows h.lod,
    mftInterval_int _ _ h.cols h.lod]
  simp only [Int.toNat_natCast]
  rw [if_pos (by unfold cropLen; omega)]

/-- The hypotheses of C16 and of matched sampling are met by concrete data. -/
example : PlacedAt sampleField (Arr2.ofFn 5 5 fun i j => (sampleField.px ((i : ℤ) - 2) ((j : ℤ) - 1)).getD 0) 2 1 := by
  refine ⟨by decide, by decide, ?_⟩
  intro i j h
  rw [Arr2.px_ofFn_in (nr := 5) (nc := 5) _ h, Int.toNat_of_nonneg h.1.1, Int.toNat_of_nonneg h.2.1]
  rfl

example : (2 : ℝ) * 32 = (64 : ℕ) := by norm_num

end Coralign.Props
