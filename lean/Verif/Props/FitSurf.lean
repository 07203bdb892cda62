import Verif.Model.FitSurf
import Verif.Props.Pupil
import Mathlib.Logic.Equiv.Fin.Basic
import Mathlib.Data.Fintype.BigOperators
import Mathlib.LinearAlgebra.Matrix.Gershgorin
import Mathlib.Tactic.FieldSimp

/-!
# Property C45: fitting DM commands to a surface
-/

namespace Coralign.Props

open Coralign Finset

/-! ### Specification -/

/-- The influence function read at a separation of `(d, e)` whole actuators from its centre pixel, zero outside. -/
def influenceAt (w : Arr2 ℝ) (P : ℕ) (d e : ℤ) : ℝ := w.zext ((w.nr : ℤ) / 2 + P * d) ((w.nc : ℤ) / 2 + P * e)

/-- The surface that a command map makes at actuator `(r, c)`: every actuator adds its command times the influence function
centred on it. -/
noncomputable def surfaceAt (cmd w : Arr2 ℝ) (P : ℕ) (r c : ℤ) : ℝ :=
  ∑ a : Fin cmd.nr, ∑ b : Fin cmd.nc, cmd.val a b * influenceAt w P (r - (a : ℕ)) (c - (b : ℕ))

/-- The influence function looks the same after half a turn about its centre. -/
def HalfTurnSymmetric (w : Arr2 ℝ) : Prop :=
  ∀ d e : ℤ, w.zext ((w.nr : ℤ) / 2 + d) ((w.nc : ℤ) / 2 + e) = w.zext ((w.nr : ℤ) / 2 - d) ((w.nc : ℤ) / 2 - e)

/-! ### Resampling at whole actuators -/

theorem infCoord_strictMono (n : ℕ) (ppa : ℝ) (h : 0 < ppa) : StrictMono (infCoord n ppa) := by
  intro a b hab
  unfold infCoord
  have : (a : ℝ) < b := by exact_mod_cast hab
  exact div_lt_div_of_pos_right (by linarith) h

theorem resample_size (n P : ℕ) (hP : 1 ≤ P) : (2 * ⌊(1 / 2 : ℝ) * n * 1 / P⌋ + 1 : ℤ) = 2 * ((n / (2 * P) : ℕ) : ℤ) + 1 := by
  have : ⌊(1 / 2 : ℝ) * n * 1 / P⌋ = ((n / (2 * P) : ℕ) : ℤ) := by
    have hP0 : (0 : ℝ) < P := by exact_mod_cast hP
    have b1 : n / (2 * P) * (2 * P) ≤ n := Nat.div_mul_le_self _ _
    have b2 : n < (n / (2 * P) + 1) * (2 * P) := by
      have := Nat.div_add_mod n (2 * P)
      have := Nat.mod_lt n (show 0 < 2 * P by omega)
      nlinarith
    rw [Int.floor_eq_iff, le_div_iff₀ hP0, div_lt_iff₀ hP0]
    generalize n / (2 * P) = q at b1 b2
    have c1 : ((q * (2 * P) : ℕ) : ℝ) ≤ n := by exact_mod_cast b1
    have c2 : (n : ℝ) < (((q + 1) * (2 * P) : ℕ) : ℝ) := by exact_mod_cast b2
    push_cast at c1 c2 ⊢
    constructor <;> linarith
  rw [this]

theorem zext_in {a : Arr2 ℝ} {i j : ℤ} (h : (0 ≤ i ∧ i < a.nr) ∧ (0 ≤ j ∧ j < a.nc)) :
    a.zext i j = a.val ⟨i.toNat, by omega⟩ ⟨j.toNat, by omega⟩ := by
  unfold Arr2.zext; rw [Arr2.px_of_inB a h]; rfl

theorem zext_out {a : Arr2 ℝ} {i j : ℤ} (h : ¬ ((0 ≤ i ∧ i < a.nr) ∧ (0 ≤ j ∧ j < a.nc))) : a.zext i j = 0 := by
  unfold Arr2.zext; rw [Arr2.px_of_not_inB a h]; rfl

/-- Index arithmetic: `d` within the resampled half-width exactly when `P * d` is within the original one. -/
theorem resample_range (n P : ℕ) (hP : 1 ≤ P) (hn : n % 2 = 1) (d : ℤ) :
    (0 ≤ ((n / (2 * P) : ℕ) : ℤ) + d ∧ ((n / (2 * P) : ℕ) : ℤ) + d < 2 * ((n / (2 * P) : ℕ) : ℤ) + 1) ↔
      (0 ≤ (n : ℤ) / 2 + P * d ∧ (n : ℤ) / 2 + P * d < n) := by
  have b1 : n / (2 * P) * (2 * P) ≤ n := Nat.div_mul_le_self _ _
  have b2 : n < (n / (2 * P) + 1) * (2 * P) := by
    have := Nat.div_add_mod n (2 * P)
    have := Nat.mod_lt n (show 0 < 2 * P by omega)
    nlinarith
  generalize n / (2 * P) = h at b1 b2 ⊢
  obtain ⟨c, rfl⟩ : ∃ c, n = 2 * c + 1 := ⟨n / 2, by omega⟩
  have hc : (((2 * c + 1 : ℕ)) : ℤ) / 2 = c := by omega
  have c1 : (h : ℤ) * P ≤ c := by
    have : h * P ≤ c := by nlinarith
    exact_mod_cast this
  have c2 : (c : ℤ) < (h + 1) * P := by
    have : c < (h + 1) * P := by nlinarith
    exact_mod_cast this
  have hP' : (1 : ℤ) ≤ P := by exact_mod_cast hP
  rw [hc]
  push_cast
  constructor
  · rintro ⟨a, b⟩
    constructor <;> nlinarith
  · rintro ⟨a, b⟩
    constructor
    · by_contra hcon
      have : d ≤ -(h + 1) := by omega
      nlinarith
    · by_contra hcon
      have : (h : ℤ) + 1 ≤ d := by omega
      nlinarith

/-- The coordinate of resampled pixel `h + d` is that of the original pixel at `P * d` from the centre. -/
theorem resample_coord (n P : ℕ) (hP : 1 ≤ P) (hn : n % 2 = 1) (d : ℤ) (h : ℕ) (i k : ℕ) (hi : (i : ℤ) = h + d)
    (hk : (k : ℤ) = (n : ℤ) / 2 + P * d) : infCoord (2 * h + 1) 1 i = infCoord n P k := by
  obtain ⟨c, rfl⟩ : ∃ c, n = 2 * c + 1 := ⟨n / 2, by omega⟩
  have hc : (((2 * c + 1 : ℕ)) : ℤ) / 2 = c := by omega
  rw [hc] at hk
  have hP0 : (P : ℝ) ≠ 0 := by positivity
  have i' : (i : ℝ) = h + d := by exact_mod_cast hi
  have k' : (k : ℝ) = c + P * d := by exact_mod_cast hk
  unfold infCoord
  rw [i', k']
  push_cast
  field_simp
  ring

/-- For an odd-sized influence function with a whole number of samples per actuator, resampling to one sample per actuator
reads exactly the samples at whole-actuator separations from the centre. -/
theorem resample_exact (S : Spline) (w : Arr2 ℝ) (P : ℕ) (hP : 1 ≤ P) (hr : w.nr % 2 = 1) (hc : w.nc % 2 = 1)
    (h4 : P = 1 ∨ 4 ≤ w.nr ∧ 4 ≤ w.nc) :
    ∃ v, resampleInfFunc S w P 1 = .ok v ∧ ∀ d e : ℤ, influenceAt v 1 d e = influenceAt w P d e := by
  have hP0 : (0 : ℝ) < P := by exact_mod_cast hP
  unfold resampleInfFunc
  rw [if_neg (not_le.mpr hP0), if_neg (by norm_num)]
  by_cases h1 : P = 1
  · subst h1
    rw [if_neg (by simp)]
    exact ⟨w, rfl, fun _ _ => rfl⟩
  · have h4' := h4.resolve_left h1
    rw [if_pos (by rw [Ne, Nat.cast_eq_one]; exact h1), if_neg (by omega)]
    obtain ⟨n, m, f⟩ := w
    simp only at hr hc h4' ⊢
    have s1 := resample_size n P hP
    have s2 := resample_size m P hP
    generalize (2 * ⌊(1 / 2 : ℝ) * n * 1 / P⌋ + 1 : ℤ) = N1 at s1 ⊢
    generalize (2 * ⌊(1 / 2 : ℝ) * m * 1 / P⌋ + 1 : ℤ) = N2 at s2 ⊢
    have s1' : N1.toNat = 2 * (n / (2 * P)) + 1 := by omega
    have s2' : N2.toNat = 2 * (m / (2 * P)) + 1 := by omega
    generalize N1.toNat = M1 at s1' ⊢
    generalize N2.toNat = M2 at s2' ⊢
    subst s1' s2'
    refine ⟨_, rfl, fun d e => ?_⟩
    have r1 := resample_range n P hP hr d
    have r2 := resample_range m P hP hc e
    have q1 := resample_coord n P hP hr d (n / (2 * P))
    have q2 := resample_coord m P hP hc e (m / (2 * P))
    generalize n / (2 * P) = h at r1 q1 ⊢
    generalize m / (2 * P) = h' at r2 q2 ⊢
    unfold influenceAt
    simp only
    have z1 : ((2 * h + 1 : ℕ) : ℤ) / 2 = h := by omega
    have z2 : ((2 * h' + 1 : ℕ) : ℤ) / 2 = h' := by omega
    rw [z1, z2, Nat.cast_one, one_mul, one_mul]
    by_cases hin : (0 ≤ (n : ℤ) / 2 + P * d ∧ (n : ℤ) / 2 + P * d < n) ∧ (0 ≤ (m : ℤ) / 2 + P * e ∧ (m : ℤ) / 2 + P * e < m)
    · have hin' : ((0 ≤ (h : ℤ) + d ∧ (h : ℤ) + d < ((2 * h + 1 : ℕ) : ℤ)) ∧ (0 ≤ (h' : ℤ) + e ∧ (h' : ℤ) + e < ((2 * h' + 1 : ℕ) : ℤ))) := by
        have a := r1.mpr hin.1
        have b := r2.mpr hin.2
        omega
      rw [zext_in (by exact hin'), zext_in (by exact hin)]
      simp only
      rw [q1 ((h : ℤ) + d).toNat ((n : ℤ) / 2 + P * d).toNat (by omega) (by omega),
        q2 ((h' : ℤ) + e).toNat ((m : ℤ) / 2 + P * e).toNat (by omega) (by omega)]
      exact S.interpolates _ _ ⟨n, m, f⟩ ⟨((n : ℤ) / 2 + P * d).toNat, by simp only; omega⟩
        ⟨((m : ℤ) / 2 + P * e).toNat, by simp only; omega⟩ (infCoord_strictMono n P hP0) (infCoord_strictMono m P hP0)
    · rw [zext_out, zext_out (by exact hin)]
      intro hcon
      apply hin
      simp only at hcon
      exact ⟨r1.mp (by omega), r2.mp (by omega)⟩

/-! ### The prefilter matrix -/

theorem poke_zext (nr nc j : ℕ) (hj : j < nr * nc) (x y : ℤ) :
    (singlePoke nr nc j).zext x y = if x = (j / nc : ℕ) ∧ y = (j % nc : ℕ) then 1 else 0 := by
  have hnc : 0 < nc := by
    rcases Nat.eq_zero_or_pos nc with h | h
    · subst h; simp at hj
    · exact h
  have hrow : j / nc < nr := by rw [Nat.div_lt_iff_lt_mul hnc]; exact hj
  have hcol : j % nc < nc := Nat.mod_lt _ hnc
  have hdm := Nat.div_add_mod j nc
  by_cases hin : (0 ≤ x ∧ x < nr) ∧ (0 ≤ y ∧ y < nc)
  · rw [zext_in (by exact hin)]
    unfold singlePoke
    simp only
    obtain ⟨a, rfl⟩ := Int.eq_ofNat_of_zero_le hin.1.1
    obtain ⟨b, rfl⟩ := Int.eq_ofNat_of_zero_le hin.2.1
    have hb : b < nc := by omega
    simp only [Int.toNat_natCast, Nat.cast_inj]
    congr 1
    apply propext
    constructor
    · rintro rfl
      constructor
      · rw [mul_comm, Nat.mul_add_div hnc, Nat.div_eq_of_lt hb, add_zero]
      · rw [mul_comm, Nat.mul_add_mod, Nat.mod_eq_of_lt hb]
    · rintro ⟨rfl, rfl⟩
      rw [mul_comm]; exact hdm
  · rw [zext_out (by exact hin), if_neg]
    rintro ⟨rfl, rfl⟩
    apply hin
    exact ⟨⟨Int.natCast_nonneg _, by exact_mod_cast hrow⟩, ⟨Int.natCast_nonneg _, by exact_mod_cast hcol⟩⟩

theorem convolve_poke (nr nc j : ℕ) (hj : j < nr * nc) (w : Arr2 ℝ) (r c : ℕ) (hr : r < nr) (hc : c < nc) :
    (ndConvolve (singlePoke nr nc j) w).zext r c = influenceAt w 1 ((r : ℤ) - (j / nc : ℕ)) ((c : ℤ) - (j % nc : ℕ)) := by
  classical
  have := Arr2.zext_val (ndConvolve (singlePoke nr nc j) w) ⟨r, hr⟩ ⟨c, hc⟩
  simp only at this
  rw [this]
  unfold ndConvolve
  simp only [poke_zext nr nc j hj]
  unfold influenceAt
  rw [Nat.cast_one, one_mul, one_mul]
  by_cases hin : (0 ≤ (w.nr : ℤ) / 2 + ((r : ℤ) - (j / nc : ℕ)) ∧ (w.nr : ℤ) / 2 + ((r : ℤ) - (j / nc : ℕ)) < w.nr) ∧
      (0 ≤ (w.nc : ℤ) / 2 + ((c : ℤ) - (j % nc : ℕ)) ∧ (w.nc : ℤ) / 2 + ((c : ℤ) - (j % nc : ℕ)) < w.nc)
  · rw [zext_in hin, Finset.sum_eq_single ⟨((w.nr : ℤ) / 2 + ((r : ℤ) - (j / nc : ℕ))).toNat, by omega⟩,
      Finset.sum_eq_single ⟨((w.nc : ℤ) / 2 + ((c : ℤ) - (j % nc : ℕ))).toNat, by omega⟩]
    · rw [if_pos, mul_one]
      constructor <;> simp only <;> omega
    · intro q _ hq
      rw [if_neg, mul_zero]
      rintro ⟨-, h2⟩
      apply hq
      apply Fin.ext
      simp only
      omega
    · simp
    · intro p _ hp
      apply Finset.sum_eq_zero
      intro q _
      rw [if_neg, mul_zero]
      rintro ⟨h1, -⟩
      apply hp
      apply Fin.ext
      simp only
      omega
    · simp
  · rw [zext_out hin]
    apply Finset.sum_eq_zero
    intro p _
    apply Finset.sum_eq_zero
    intro q _
    rw [if_neg, mul_zero]
    rintro ⟨h1, h2⟩
    apply hin
    have := p.isLt
    have := q.isLt
    omega

/-- The matrix built by the code, entry by entry. -/
theorem prefilter_eq (S : Spline) (nr nc : ℕ) (hnr : 1 ≤ nr) (hnc : 1 ≤ nc) (w : Arr2 ℝ) (P : ℕ) (hP : 1 ≤ P)
    (hr : w.nr % 2 = 1) (hc : w.nc % 2 = 1) (h4 : P = 1 ∨ 4 ≤ w.nr ∧ 4 ≤ w.nc) :
    buildPrefilter S nr nc w P = .ok fun j k => influenceAt w P
      (((k : ℕ) / nc : ℕ) - ((j : ℕ) / nc : ℕ)) (((k : ℕ) % nc : ℕ) - ((j : ℕ) % nc : ℕ)) := by
  obtain ⟨v, hv, hvw⟩ := resample_exact S w P hP hr hc h4
  unfold buildPrefilter
  rw [if_neg (by omega), hv, res_ok_bind]
  congr 1
  funext j k
  have hk : (k : ℕ) < nr * nc := k.isLt
  have hj : (j : ℕ) < nr * nc := j.isLt
  rw [← hvw]
  exact convolve_poke nr nc j hj v _ _ ((Nat.div_lt_iff_lt_mul hnc).mpr hk)
    (Nat.mod_lt _ hnc)

/-- Sums over the flattened index. -/
theorem sum_flat (nr nc : ℕ) (f : ℕ → ℕ → ℝ) :
    ∑ k : Fin (nr * nc), f ((k : ℕ) / nc) ((k : ℕ) % nc) = ∑ a : Fin nr, ∑ b : Fin nc, f a b := by
  rw [← Finset.sum_product', Finset.univ_product_univ, ← Equiv.sum_comp (finProdFinEquiv (m := nr) (n := nc))]
  refine Finset.sum_congr rfl fun p _ => ?_
  have hnc : 0 < nc := by have := p.2.isLt; omega
  have h2 := p.2.isLt
  simp only [finProdFinEquiv_apply_val]
  rw [Nat.add_mul_div_left _ _ hnc, Nat.div_eq_of_lt h2, zero_add, Nat.add_mul_mod_self_left, Nat.mod_eq_of_lt h2]

/-! ### C45 -/

/-- The matrix of the fit is not singular. -/
def FitRegular (S : Spline) (nr nc : ℕ) (w : Arr2 ℝ) (P : ℕ) : Prop :=
  ∃ A, buildPrefilter S nr nc w P = .ok A ∧ IsUnit A.det

/-- `fit_surf_to_dm(surf, build_prefilter(nrow, ncol, inf_func, ppa))`, as every caller uses the two functions. -/
noncomputable def fitDm (S : Spline) (L : SpSolve) (surf w : Arr2 ℝ) (P : ℕ) : Res (Arr2 ℝ) := do
  let A ← buildPrefilter S surf.nr surf.nc w P
  fitSurfToDm L surf A

theorem fitDm_eq (S : Spline) (L : SpSolve) (nr nc : ℕ) (hnr : 1 ≤ nr) (hnc : 1 ≤ nc) (s : Fin nr → Fin nc → ℝ) (w : Arr2 ℝ)
    (P : ℕ) (hreg : FitRegular S nr nc w P) (hP : 1 ≤ P) (hr : w.nr % 2 = 1) (hc : w.nc % 2 = 1)
    (h4 : P = 1 ∨ 4 ≤ w.nr ∧ 4 ≤ w.nc) :
    ∃ x : Fin nr → Fin nc → ℝ, fitDm S L ⟨nr, nc, s⟩ w P = .ok ⟨nr, nc, x⟩ ∧
      (∀ (r : Fin nr) (c : Fin nc), ∑ a, ∑ b, x a b * influenceAt w P ((a : ℕ) - (r : ℕ)) ((b : ℕ) - (c : ℕ)) = s r c) ∧
      (∀ y : Fin nr → Fin nc → ℝ, (∀ (r : Fin nr) (c : Fin nc),
        ∑ a, ∑ b, y a b * influenceAt w P ((a : ℕ) - (r : ℕ)) ((b : ℕ) - (c : ℕ)) = s r c) → y = x) := by
  obtain ⟨A, hA, hdet⟩ := hreg
  have hA' := Except.ok.inj ((prefilter_eq S nr nc hnr hnc w P hP hr hc h4).symm.trans hA)
  have hlt : ∀ (i : Fin nr) (j : Fin nc), (i : ℕ) * nc + j < nr * nc := by
    intro i j
    have := i.isLt
    have := j.isLt
    nlinarith
  set b : Fin (nr * nc) → ℝ := fun k => (⟨nr, nc, s⟩ : Arr2 ℝ).zext (flatRow nc k : ℕ) (flatCol nc k : ℕ) with hb
  have hbk : ∀ (r : Fin nr) (c : Fin nc), b ⟨(r : ℕ) * nc + c, hlt r c⟩ = s r c := by
    intro r c
    have e1 : ((r : ℕ) * nc + c) / nc = r := by
      rw [mul_comm, Nat.mul_add_div hnc, Nat.div_eq_of_lt c.isLt, add_zero]
    have e2 : ((r : ℕ) * nc + c) % nc = c := by
      rw [mul_comm, Nat.mul_add_mod, Nat.mod_eq_of_lt c.isLt]
    simp only [hb, flatRow, flatCol, e1, e2]
    exact Arr2.zext_val (⟨nr, nc, s⟩ : Arr2 ℝ) r c
  -- the linear system in terms of the command map
  have key : ∀ z : Fin (nr * nc) → ℝ, A.mulVec z = b ↔ ∀ (r : Fin nr) (c : Fin nc),
      ∑ a : Fin nr, ∑ b' : Fin nc, z ⟨(a : ℕ) * nc + b', hlt a b'⟩ * influenceAt w P ((a : ℕ) - (r : ℕ)) ((b' : ℕ) - (c : ℕ)) = s r c := by
    intro z
    have row : ∀ j : Fin (nr * nc), A.mulVec z j = ∑ a : Fin nr, ∑ b' : Fin nc, z ⟨(a : ℕ) * nc + b', hlt a b'⟩ *
        influenceAt w P ((a : ℕ) - ((j : ℕ) / nc : ℕ)) ((b' : ℕ) - ((j : ℕ) % nc : ℕ)) := by
      intro j
      have hs := sum_flat nr nc (fun a b' => (if h : a * nc + b' < nr * nc then z ⟨a * nc + b', h⟩ else 0) *
        influenceAt w P ((a : ℤ) - ((j : ℕ) / nc : ℕ)) ((b' : ℤ) - ((j : ℕ) % nc : ℕ)))
      simp only [hlt, dite_true] at hs
      rw [← hs]
      unfold Matrix.mulVec dotProduct
      refine Finset.sum_congr rfl fun k _ => ?_
      have hk : (k : ℕ) / nc * nc + (k : ℕ) % nc = k := by rw [mul_comm]; exact Nat.div_add_mod _ _
      have hk' : (k : ℕ) / nc * nc + (k : ℕ) % nc < nr * nc := by rw [hk]; exact k.isLt
      have hz : z ⟨(k : ℕ) / nc * nc + (k : ℕ) % nc, hk'⟩ = z k := congrArg z (Fin.ext hk)
      rw [dif_pos hk', hz, mul_comm]
      congr 1
      exact (congrFun (congrFun hA' j) k).symm
    constructor
    · intro h r c
      have := congrFun h ⟨(r : ℕ) * nc + c, hlt r c⟩
      rw [row, hbk] at this
      rw [← this]
      have e1 : ((r : ℕ) * nc + c) / nc = r := by
        rw [mul_comm, Nat.mul_add_div hnc, Nat.div_eq_of_lt c.isLt, add_zero]
      have e2 : ((r : ℕ) * nc + c) % nc = c := by
        rw [mul_comm, Nat.mul_add_mod, Nat.mod_eq_of_lt c.isLt]
      simp only [e1, e2]
    · intro h
      funext j
      rw [row]
      have hj : (j : ℕ) / nc * nc + (j : ℕ) % nc = j := by rw [mul_comm]; exact Nat.div_add_mod _ _
      have hrow : (j : ℕ) / nc < nr := by rw [Nat.div_lt_iff_lt_mul hnc]; exact j.isLt
      have := h ⟨(j : ℕ) / nc, hrow⟩ ⟨(j : ℕ) % nc, Nat.mod_lt _ hnc⟩
      rw [this, ← hbk]
      congr 1
      apply Fin.ext
      exact hj
  refine ⟨fun i j => L.solve A b ⟨(i : ℕ) * nc + j, hlt i j⟩, ?_, ?_, ?_⟩
  · unfold fitDm
    simp only
    rw [hA, res_ok_bind]
    unfold fitSurfToDm
    rw [if_neg (by simp)]
    simp only [hlt, Int.toNat_natCast, dite_true]
    rfl
  · exact (key _).mp (L.solves A b hdet)
  · intro y hy
    have hz : A.mulVec (fun k : Fin (nr * nc) => if h : (k : ℕ) / nc < nr then y ⟨(k : ℕ) / nc, h⟩ ⟨(k : ℕ) % nc, Nat.mod_lt _ hnc⟩ else 0) = b := by
      rw [key]
      intro r c
      rw [← hy r c]
      refine Finset.sum_congr rfl fun a _ => Finset.sum_congr rfl fun b' _ => ?_
      have e1 : ((a : ℕ) * nc + b') / nc = a := by
        rw [mul_comm, Nat.mul_add_div hnc, Nat.div_eq_of_lt b'.isLt, add_zero]
      have e2 : ((a : ℕ) * nc + b') % nc = b' := by
        rw [mul_comm, Nat.mul_add_mod, Nat.mod_eq_of_lt b'.isLt]
      simp only [e1, e2, a.isLt, dite_true]
    funext i j
    rw [L.unique A b _ hdet hz]
    have e1 : ((i : ℕ) * nc + j) / nc = i := by
      rw [mul_comm, Nat.mul_add_div hnc, Nat.div_eq_of_lt j.isLt, add_zero]
    have e2 : ((i : ℕ) * nc + j) % nc = j := by
      rw [mul_comm, Nat.mul_add_mod, Nat.mod_eq_of_lt j.isLt]
    simp only [e1, e2, i.isLt, dite_true]

theorem influence_symm {w : Arr2 ℝ} (hs : HalfTurnSymmetric w) (P : ℕ) (d e : ℤ) :
    influenceAt w P d e = influenceAt w P (-d) (-e) := by
  unfold influenceAt
  rw [hs, mul_neg, mul_neg, ← sub_eq_add_neg, ← sub_eq_add_neg]

/-- **C45 (partial).** For an influence function that is unchanged by half a turn, sampled at a whole number `P` of pixels per
actuator, the returned commands make exactly the requested surface at every actuator.  Missing: influence functions without
that symmetry, for which the claim is false (`C45_asymmetric_fails`). -/
theorem C45_reproduces_partial (S : Spline) (L : SpSolve) (nr nc : ℕ) (hnr : 1 ≤ nr) (hnc : 1 ≤ nc) (s : Fin nr → Fin nc → ℝ)
    (w : Arr2 ℝ) (P : ℕ) (hP : 1 ≤ P) (hr : w.nr % 2 = 1) (hc : w.nc % 2 = 1) (h4 : P = 1 ∨ 4 ≤ w.nr ∧ 4 ≤ w.nc)
    (hreg : FitRegular S nr nc w P) (hsym : HalfTurnSymmetric w) :
    ∃ cmd, fitDm S L ⟨nr, nc, s⟩ w P = .ok cmd ∧ cmd.nr = nr ∧ cmd.nc = nc ∧
      ∀ (r : Fin nr) (c : Fin nc), surfaceAt cmd w P (r : ℕ) (c : ℕ) = s r c := by
  obtain ⟨x, hx, hsol, -⟩ := fitDm_eq S L nr nc hnr hnc s w P hreg hP hr hc h4
  refine ⟨_, hx, rfl, rfl, fun r c => ?_⟩
  rw [← hsol r c]
  unfold surfaceAt
  refine Finset.sum_congr rfl fun a _ => Finset.sum_congr rfl fun b _ => ?_
  simp only
  rw [influence_symm hsym, neg_sub, neg_sub]

/-- **C45 (partial).** Under the same conditions, fitting the surface made by some commands gives back those commands. -/
theorem C45_round_trip_partial (S : Spline) (L : SpSolve) (nr nc : ℕ) (hnr : 1 ≤ nr) (hnc : 1 ≤ nc)
    (y : Fin nr → Fin nc → ℝ) (w : Arr2 ℝ) (P : ℕ) (hP : 1 ≤ P) (hr : w.nr % 2 = 1) (hc : w.nc % 2 = 1)
    (h4 : P = 1 ∨ 4 ≤ w.nr ∧ 4 ≤ w.nc) (hreg : FitRegular S nr nc w P) (hsym : HalfTurnSymmetric w) :
    fitDm S L ⟨nr, nc, fun r c => surfaceAt ⟨nr, nc, y⟩ w P (r : ℕ) (c : ℕ)⟩ w P = .ok ⟨nr, nc, y⟩ := by
  obtain ⟨x, hx, -, huniq⟩ := fitDm_eq S L nr nc hnr hnc (fun r c => surfaceAt ⟨nr, nc, y⟩ w P (r : ℕ) (c : ℕ)) w P hreg hP hr hc h4
  rw [hx, huniq y fun r c => ?_]
  unfold surfaceAt
  refine Finset.sum_congr rfl fun a _ => Finset.sum_congr rfl fun b _ => ?_
  simp only
  rw [influence_symm hsym, neg_sub, neg_sub]

/-- **C45.** For every influence function, the returned commands are the ones whose surface, made with the influence function
*turned by 180 degrees*, is the requested one. -/
theorem C45_turned_influence (S : Spline) (L : SpSolve) (nr nc : ℕ) (hnr : 1 ≤ nr) (hnc : 1 ≤ nc) (s : Fin nr → Fin nc → ℝ)
    (w : Arr2 ℝ) (P : ℕ) (hP : 1 ≤ P) (hr : w.nr % 2 = 1) (hc : w.nc % 2 = 1) (h4 : P = 1 ∨ 4 ≤ w.nr ∧ 4 ≤ w.nc)
    (hreg : FitRegular S nr nc w P) :
    ∃ cmd, fitDm S L ⟨nr, nc, s⟩ w P = .ok cmd ∧ cmd.nr = nr ∧ cmd.nc = nc ∧
      ∀ (r : Fin nr) (c : Fin nc), ∑ a : Fin cmd.nr, ∑ b : Fin cmd.nc,
        cmd.val a b * influenceAt w P (-((r : ℕ) - (a : ℕ))) (-((c : ℕ) - (b : ℕ))) = s r c := by
  obtain ⟨x, hx, hsol, -⟩ := fitDm_eq S L nr nc hnr hnc s w P hreg hP hr hc h4
  refine ⟨_, hx, rfl, rfl, fun r c => ?_⟩
  rw [← hsol r c]
  refine Finset.sum_congr rfl fun a _ => Finset.sum_congr rfl fun b _ => ?_
  simp only
  rw [neg_sub, neg_sub]

/-- **C45.** A sufficient condition for the fit to be well posed: the influence of an actuator on its own position exceeds the
sum of its influences on all the others. -/
theorem C45_regular_of_local (S : Spline) (nr nc : ℕ) (hnr : 1 ≤ nr) (hnc : 1 ≤ nc) (w : Arr2 ℝ) (P : ℕ) (hP : 1 ≤ P)
    (hr : w.nr % 2 = 1) (hc : w.nc % 2 = 1) (h4 : P = 1 ∨ 4 ≤ w.nr ∧ 4 ≤ w.nc)
    (hdom : ∀ (r : Fin nr) (c : Fin nc), ∑ a : Fin nr, ∑ b : Fin nc,
      |influenceAt w P ((a : ℕ) - (r : ℕ)) ((b : ℕ) - (c : ℕ))| < 2 * |influenceAt w P 0 0|) : FitRegular S nr nc w P := by
  refine ⟨_, prefilter_eq S nr nc hnr hnc w P hP hr hc h4, ?_⟩
  rw [isUnit_iff_ne_zero]
  apply det_ne_zero_of_sum_row_lt_diag
  intro j
  simp only [Real.norm_eq_abs, sub_self]
  have hrow : (j : ℕ) / nc < nr := by rw [Nat.div_lt_iff_lt_mul hnc]; exact j.isLt
  have hd := hdom ⟨(j : ℕ) / nc, hrow⟩ ⟨(j : ℕ) % nc, Nat.mod_lt _ hnc⟩
  have hs := sum_flat nr nc (fun a b => |influenceAt w P ((a : ℤ) - ((j : ℕ) / nc : ℕ)) ((b : ℤ) - ((j : ℕ) % nc : ℕ))|)
  simp only at hd
  rw [← hs] at hd
  have he := Finset.add_sum_erase Finset.univ
    (fun k : Fin (nr * nc) => |influenceAt w P (((k : ℕ) / nc : ℕ) - ((j : ℕ) / nc : ℕ)) (((k : ℕ) % nc : ℕ) - ((j : ℕ) % nc : ℕ))|)
    (Finset.mem_univ j)
  simp only [sub_self] at he
  rw [← he] at hd
  exact (add_lt_add_iff_left _).mp (hd.trans_eq (two_mul _))

/-- A one-sided influence function. -/
noncomputable def oneSided : Arr2 ℝ := ⟨1, 3, fun _ j => ![0, 1, 1 / 2] j⟩

/-- **C45, limit.** With an influence function that is not symmetric under half a turn the commands do not reproduce the
surface, whatever solver and spline are used: the code solves with the transposed matrix. -/
theorem C45_asymmetric_fails (S : Spline) (L : SpSolve) :
    FitRegular S 1 2 oneSided 1 ∧
    ∃ cmd, fitDm S L ⟨1, 2, fun _ j => ![1, 0] j⟩ oneSided 1 = .ok cmd ∧ surfaceAt cmd oneSided 1 0 1 ≠ 0 := by
  have v0 : influenceAt oneSided 1 0 0 = 1 := by
    unfold influenceAt; rw [zext_in (by unfold oneSided; norm_num)]; simp [oneSided]
  have v1 : influenceAt oneSided 1 0 1 = 1 / 2 := by
    unfold influenceAt; rw [zext_in (by unfold oneSided; norm_num)]; simp [oneSided]
  have vm : influenceAt oneSided 1 0 (-1) = 0 := by
    unfold influenceAt; rw [zext_in (by unfold oneSided; norm_num)]; simp [oneSided]
  have hreg : FitRegular S 1 2 oneSided 1 := by
    apply C45_regular_of_local S 1 2 le_rfl (by norm_num) oneSided 1 le_rfl rfl rfl (Or.inl rfl)
    intro r c
    fin_cases r
    fin_cases c
    · simp [Fin.sum_univ_two, v0, v1]; norm_num
    · simp [Fin.sum_univ_two, v0, vm]
  refine ⟨hreg, ?_⟩
  obtain ⟨x, hx, -, huniq⟩ := fitDm_eq S L 1 2 le_rfl (by norm_num) (fun _ j => ![1, 0] j) oneSided 1 hreg le_rfl rfl rfl (Or.inl rfl)
  refine ⟨_, hx, ?_⟩
  rw [← huniq (fun _ j => ![1, 0] j) fun r c => by
    fin_cases r
    fin_cases c
    · simp [Fin.sum_univ_two, v0]
    · simp [Fin.sum_univ_two, v0, vm]]
  unfold surfaceAt
  simp [Fin.sum_univ_two, v0, v1]

/-- **C45.** Errors: non-positive sizes or sampling and size mismatches raise `TypeError`. -/
theorem C45_rejects (S : Spline) (L : SpSolve) (nrow ncol : ℤ) (w surf : Arr2 ℝ) (ppa : ℝ) :
    (nrow ≤ 0 ∨ ncol ≤ 0 ∨ ppa ≤ 0 → buildPrefilter S nrow ncol w ppa = .error .typeError) ∧
    (∀ (N : ℕ) (A : Matrix (Fin N) (Fin N) ℝ), N ≠ surf.nr * surf.nc → fitSurfToDm L surf A = .error .typeError) := by
  constructor
  · intro h
    unfold buildPrefilter
    by_cases hs : nrow ≤ 0 ∨ ncol ≤ 0
    · rw [if_pos hs]
    · have hp : ppa ≤ 0 := by tauto
      rw [if_neg hs]
      unfold resampleInfFunc
      rw [if_pos hp]
      rfl
  · intro N A h
    unfold fitSurfToDm
    rw [if_pos h]

/-- A symmetric influence function that satisfies the hypotheses: coupling of 15% to the four neighbours. -/
noncomputable def crossInfluence : Arr2 ℝ :=
  ⟨3, 3, fun i j => if (i : ℕ) = 1 ∧ (j : ℕ) = 1 then 1 else if (i : ℕ) = 1 ∨ (j : ℕ) = 1 then 0.15 else 0⟩

example : HalfTurnSymmetric crossInfluence := by
  intro d e
  by_cases h : (-1 ≤ d ∧ d ≤ 1) ∧ (-1 ≤ e ∧ e ≤ 1)
  · rw [zext_in (by unfold crossInfluence; simp only; omega), zext_in (by unfold crossInfluence; simp only; omega)]
    unfold crossInfluence
    simp only
    have : d = -1 ∨ d = 0 ∨ d = 1 := by omega
    have : e = -1 ∨ e = 0 ∨ e = 1 := by omega
    rcases ‹d = -1 ∨ d = 0 ∨ d = 1› with rfl | rfl | rfl <;> rcases ‹e = -1 ∨ e = 0 ∨ e = 1› with rfl | rfl | rfl <;> norm_num [show Int.toNat 2 = 2 from rfl]
  · rw [zext_out (by unfold crossInfluence; simp only; omega), zext_out (by unfold crossInfluence; simp only; omega)]

example (S : Spline) : FitRegular S 2 2 crossInfluence 1 := by
  have v : ∀ d e : ℤ, (-1 ≤ d ∧ d ≤ 1) → (-1 ≤ e ∧ e ≤ 1) → influenceAt crossInfluence 1 d e =
      if d = 0 ∧ e = 0 then 1 else if d = 0 ∨ e = 0 then 0.15 else 0 := by
    intro d e hd he
    unfold influenceAt
    rw [zext_in (by unfold crossInfluence; simp only; omega)]
    unfold crossInfluence
    simp only
    have h1 : ((((3 : ℕ) : ℤ) / 2 + ((1 : ℕ) : ℤ) * d).toNat = 1) ↔ d = 0 := by omega
    have h2 : ((((3 : ℕ) : ℤ) / 2 + ((1 : ℕ) : ℤ) * e).toNat = 1) ↔ e = 0 := by omega
    simp only [h1, h2]
  apply C45_regular_of_local S 2 2 (by norm_num) (by norm_num) crossInfluence 1 le_rfl rfl rfl (Or.inl rfl)
  intro r c
  fin_cases r <;> fin_cases c <;> simp [Fin.sum_univ_two, v] <;> norm_num [abs_of_pos]

end Coralign.Props
