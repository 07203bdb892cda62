import Verif.Props.ZernikeOrtho
import Mathlib.Algebra.Polynomial.Roots

/-!
# C24: when the usable pixels determine the coefficients
-/

namespace Coralign.Props

open Coralign Coralign.Spec MeasureTheory

/-- A function of one variable given by a polynomial of degree at most `d`. -/
def PolyLe (d : ℕ) (g : ℝ → ℝ) : Prop := ∃ p : Polynomial ℝ, p.natDegree ≤ d ∧ ∀ x, g x = p.eval x

theorem PolyLe.const (d : ℕ) (c : ℝ) : PolyLe d fun _ => c := ⟨Polynomial.C c, by simp, by simp⟩

theorem PolyLe.id : PolyLe 1 fun x => x := ⟨Polynomial.X, by simp, by simp⟩

theorem PolyLe.add {d : ℕ} {f g : ℝ → ℝ} (hf : PolyLe d f) (hg : PolyLe d g) : PolyLe d fun x => f x + g x := by
  obtain ⟨p, hp, ep⟩ := hf
  obtain ⟨q, hq, eq⟩ := hg
  exact ⟨p + q, (Polynomial.natDegree_add_le _ _).trans (max_le hp hq), fun x => by simp only [Polynomial.eval_add, ep, eq]⟩

theorem PolyLe.mul {d e : ℕ} {f g : ℝ → ℝ} (hf : PolyLe d f) (hg : PolyLe e g) : PolyLe (d + e) fun x => f x * g x := by
  obtain ⟨p, hp, ep⟩ := hf
  obtain ⟨q, hq, eq⟩ := hg
  exact ⟨p * q, Polynomial.natDegree_mul_le.trans (add_le_add hp hq), fun x => by simp only [Polynomial.eval_mul, ep, eq]⟩

theorem PolyLe.mono {d e : ℕ} {f : ℝ → ℝ} (hf : PolyLe d f) (h : d ≤ e) : PolyLe e f := by
  obtain ⟨p, hp, ep⟩ := hf
  exact ⟨p, hp.trans h, ep⟩

theorem PolyLe.pow {d : ℕ} {f : ℝ → ℝ} (hf : PolyLe d f) (t : ℕ) : PolyLe (t * d) fun x => f x ^ t := by
  induction t with
  | zero => simpa using PolyLe.const 0 1
  | succ t ih =>
    have := ih.mul hf
    rw [show (t + 1) * d = t * d + d by ring]
    simpa only [pow_succ] using this

theorem PolyLe.sum {ι : Type} (s : Finset ι) {d : ℕ} {f : ι → ℝ → ℝ} (hf : ∀ i ∈ s, PolyLe d (f i)) : PolyLe d fun x => ∑ i ∈ s, f i x := by
  classical
  induction s using Finset.induction_on with
  | empty => simpa using PolyLe.const d 0
  | insert a s ha ih =>
    simp only [Finset.sum_insert ha]
    exact (hf a (by simp)).add (ih fun i hi => hf i (by simp [hi]))

/-- A polynomial of degree at most `d` with more than `d` zeros vanishes. -/
theorem PolyLe.zero {d : ℕ} {f : ℝ → ℝ} (hf : PolyLe d f) (T : Finset ℝ) (hT : d < T.card) (h0 : ∀ x ∈ T, f x = 0) (x : ℝ) : f x = 0 := by
  obtain ⟨p, hp, ep⟩ := hf
  have : p = 0 := Polynomial.eq_zero_of_natDegree_lt_card_of_eval_eq_zero' p T (fun x hx => by rw [← ep, h0 x hx]) (lt_of_le_of_lt hp hT)
  rw [ep, this, Polynomial.eval_zero]

/-- Real and imaginary part of `(x + i y)^m` along a line. -/
theorem power_poly (m : ℕ) (X Y : ℝ → ℝ) (hX : PolyLe 1 X) (hY : PolyLe 1 Y) :
    PolyLe m (fun x => (((X x : ℂ) + Y x * Complex.I) ^ m).re) ∧ PolyLe m fun x => (((X x : ℂ) + Y x * Complex.I) ^ m).im := by
  induction m with
  | zero => exact ⟨by simpa using PolyLe.const 0 1, by simpa using PolyLe.const 0 0⟩
  | succ m ih =>
    obtain ⟨h1, h2⟩ := ih
    constructor
    · have := (h1.mul hX).add ((PolyLe.const 0 (-1)).mul (h2.mul hY) |>.mono (by omega : 0 + (m + 1) ≤ m + 1))
      refine (funext fun x => ?_ : (fun x => (((X x : ℂ) + Y x * Complex.I) ^ (m + 1)).re) = _) ▸ this
      rw [pow_succ, Complex.mul_re]
      simp
      ring
    · have := (h1.mul hY).add (h2.mul hX)
      refine (funext fun x => ?_ : (fun x => (((X x : ℂ) + Y x * Complex.I) ^ (m + 1)).im) = _) ▸ this
      rw [pow_succ, Complex.mul_im]
      simp

/-- A mode of radial order `n` is a polynomial of degree at most `n` along every line. -/
theorem zernike_poly (n m : ℕ) (h : ValidMode n m) (s : Bool) (prad : ℝ) (X Y : ℝ → ℝ) (hX : PolyLe 1 X) (hY : PolyLe 1 Y) :
    PolyLe n fun x => zernike n m s (Real.sqrt (X x ^ 2 + Y x ^ 2) / prad) (Complex.arg ⟨X x, Y x⟩) := by
  obtain ⟨h1, K, hK⟩ := h
  obtain rfl : n = m + 2 * K := by omega
  have hz := fun x => zernike_cartesian m K s prad (X x, Y x)
  simp only at hz
  simp only [hz]
  obtain ⟨p1, p2⟩ := power_poly m X Y hX hY
  have hr : PolyLe (2 * K) fun x => ∑ t ∈ Finset.range (K + 1), radialW m K t * ((X x ^ 2 + Y x ^ 2) / prad ^ 2) ^ t := by
    refine PolyLe.sum _ fun t ht => ?_
    rw [Finset.mem_range] at ht
    have h2 : PolyLe 2 fun x => (X x ^ 2 + Y x ^ 2) / prad ^ 2 := by
      have := ((hX.pow 2).add (hY.pow 2)).mul (PolyLe.const 0 (1 / prad ^ 2))
      simpa only [mul_one_div] using this
    exact ((PolyLe.const 0 (radialW m K t)).mul (h2.pow t)).mono (by omega)
  have hw : PolyLe m fun x => (if m = 0 then (1 : ℝ) else if s then (((X x : ℂ) + Y x * Complex.I) ^ m).im / prad ^ m
      else (((X x : ℂ) + Y x * Complex.I) ^ m).re / prad ^ m) := by
    split_ifs
    · exact PolyLe.const m 1
    · simpa only [mul_one_div, add_zero] using p2.mul (PolyLe.const 0 (1 / prad ^ m))
    · simpa only [mul_one_div, add_zero] using p1.mul (PolyLe.const 0 (1 / prad ^ m))
  exact (((PolyLe.const 0 (nollFactor (m + 2 * K) m)).mul hr).mul hw).mono (by omega)

/-- The radial order of the first `(d+1)(d+2)/2` modes is at most `d`. -/
theorem noll_order_le (j d : ℕ) (hj : 1 ≤ j) (hd : j ≤ (d + 1) * (d + 2) / 2) : (nollN j).toNat ≤ d := by
  obtain ⟨n, m, hn, -, -, h1, h2⟩ := C21_valid j hj
  rw [hn, Int.toNat_natCast]
  by_contra hc
  have h3 : (d + 1) * (d + 2) ≤ n * (n + 1) := Nat.mul_le_mul (by omega) (by omega)
  have : (d + 1) * (d + 2) / 2 ≤ n * (n + 1) / 2 := Nat.div_le_div_right h3
  omega

theorem sample_poly (j d : ℕ) (hj : 1 ≤ j) (hd : j ≤ (d + 1) * (d + 2) / 2) (prad : ℝ) (X Y : ℝ → ℝ) (hX : PolyLe 1 X) (hY : PolyLe 1 Y) :
    PolyLe d fun x => zernSample j prad (X x) (Y x) := by
  have hle := noll_order_le j d hj hd
  obtain ⟨n, m, hn, hm, hv, -, -⟩ := C21_valid j hj
  simp only [zernSample_eq j hj]
  rw [hn, Int.toNat_natCast] at hle
  simp only [hn, hm, Int.toNat_natCast]
  exact (zernike_poly n m hv _ prad X Y hX hY).mono hle

theorem returns_sample (prad : ℝ) (hp : 0 < prad) : ReturnsModes prad fun j x y => zernSample j prad x y := by
  intro j hj x y
  have := returns_zernike prad hp j hj x y
  simp only [zernSample_eq j hj]
  exact this

/-- An expansion that vanishes on a product of more than `d` columns and more than `d` rows has no coefficients. -/
theorem expansion_zero (N d : ℕ) (hd : N ≤ (d + 1) * (d + 2) / 2) (prad : ℝ) (hp : 0 < prad) (c : Fin N → ℝ) (T U : Finset ℝ) (hT : d < T.card)
    (hU : d < U.card) (h0 : ∀ x ∈ T, ∀ y ∈ U, ∑ s : Fin N, c s * zernSample (((s : ℕ) : ℤ) + 1) prad x y = 0) : c = 0 := by
  have hall : ∀ x y : ℝ, ∑ s : Fin N, c s * zernSample (((s : ℕ) : ℤ) + 1) prad x y = 0 := by
    have hpoly : ∀ X Y : ℝ → ℝ, PolyLe 1 X → PolyLe 1 Y → PolyLe d fun x => ∑ s : Fin N, c s * zernSample (((s : ℕ) : ℤ) + 1) prad (X x) (Y x) := by
      intro X Y hX hY
      refine PolyLe.sum _ fun s _ => ?_
      have := sample_poly ((s : ℕ) + 1) d (by omega) (by omega) prad X Y hX hY
      rw [Nat.cast_add, Nat.cast_one] at this
      exact ((PolyLe.const 0 (c s)).mul this).mono (by omega)
    have h1 : ∀ y ∈ U, ∀ x, ∑ s : Fin N, c s * zernSample (((s : ℕ) : ℤ) + 1) prad x y = 0 := fun y hy =>
      (hpoly (fun x => x) (fun _ => y) PolyLe.id (PolyLe.const 1 y)).zero T hT fun x hx => h0 x hx y hy
    intro x y
    exact (hpoly (fun _ => x) (fun y => y) (PolyLe.const 1 x) PolyLe.id).zero U hU (fun y hy => h1 y hy x) y
  -- the mean square is the sum of the squared coefficients
  have hr := C88_rms prad hp _ (returns_sample prad hp) ((Finset.range N).image (· + 1)) (by
    intro j hj
    obtain ⟨k, _, rfl⟩ := Finset.mem_image.mp hj
    omega) (fun j => if h : j - 1 < N then c ⟨j - 1, h⟩ else 0)
  have hinj : Set.InjOn (fun k : ℕ => k + 1) (Finset.range N) := fun a _ b _ h => by simpa using h
  simp only [Finset.sum_image hinj, Nat.add_sub_cancel] at hr
  rw [show (fun x y => (∑ k ∈ Finset.range N, (if h : k < N then c ⟨k, h⟩ else 0) * zernSample ((k + 1 : ℕ) : ℤ) prad x y) ^ 2) = fun _ _ => 0 from ?_] at hr
  · have h2 : ∑ k ∈ Finset.range N, (if h : k < N then c ⟨k, h⟩ else 0) ^ 2 = ∑ s : Fin N, c s ^ 2 := by
      rw [← Fin.sum_univ_eq_sum_range (fun k => (if h : k < N then c ⟨k, h⟩ else 0) ^ 2) N]
      exact Finset.sum_congr rfl fun s _ => by rw [dif_pos s.isLt]
    rw [h2] at hr
    have h3 : pupilMean prad (fun _ _ => 0) = 0 := by unfold pupilMean; simp
    rw [h3] at hr
    funext s
    have := (Finset.sum_eq_zero_iff_of_nonneg (fun s _ => sq_nonneg (c s))).mp hr.symm s (Finset.mem_univ s)
    simpa using this
  · funext x y
    rw [← Fin.sum_univ_eq_sum_range (fun k => (if h : k < N then c ⟨k, h⟩ else 0) * zernSample ((k + 1 : ℕ) : ℤ) prad x y) N]
    rw [Finset.sum_congr rfl fun s _ => by rw [dif_pos s.isLt, Nat.cast_add, Nat.cast_one], hall x y]
    simp

/-- The modes are independent on a product of `d + 1` rows and `d + 1` columns. -/
theorem basis_independent (ny nx N d : ℕ) (hd : N ≤ (d + 1) * (d + 2) / 2) (nBeam dx dy : ℝ) (hb : 0 < nBeam) (u : Fin ny → Fin nx → Bool)
    (rows : Finset (Fin ny)) (cols : Finset (Fin nx)) (hr : d < rows.card) (hc : d < cols.card) (hu : ∀ i ∈ rows, ∀ k ∈ cols, u i k = true)
    (c : Fin N → ℝ) (h : ∀ i k, u i k = true → ∑ s : Fin N, fitBasis ny nx nBeam dx dy s i k * c s = 0) : c = 0 := by
  have ic : Function.Injective fun k : Fin nx => ((k : ℕ) : ℝ) - ((nx / 2 : ℕ) : ℝ) - dx := fun a b e => by
    simp only [sub_left_inj, Nat.cast_inj] at e; exact Fin.ext e
  have ir : Function.Injective fun k : Fin ny => ((k : ℕ) : ℝ) - ((ny / 2 : ℕ) : ℝ) - dy := fun a b e => by
    simp only [sub_left_inj, Nat.cast_inj] at e; exact Fin.ext e
  refine expansion_zero N d hd (nBeam / 2) (by linarith) c (cols.image fun k : Fin nx => ((k : ℕ) : ℝ) - ((nx / 2 : ℕ) : ℝ) - dx)
    (rows.image fun k : Fin ny => ((k : ℕ) : ℝ) - ((ny / 2 : ℕ) : ℝ) - dy) (by rwa [Finset.card_image_of_injective _ ic])
    (by rwa [Finset.card_image_of_injective _ ir]) ?_
  intro x hx y hy
  obtain ⟨k, hk, rfl⟩ := Finset.mem_image.mp hx
  obtain ⟨i, hi, rfl⟩ := Finset.mem_image.mp hy
  rw [← h i k (hu i hi k hk)]
  refine Finset.sum_congr rfl fun s _ => ?_
  have hm := zernSample_mode ((s : ℕ) + 1) (by omega)
  push_cast at hm
  rw [hm]
  exact mul_comm _ _

/-- **C24.** Exact recovery without any assumption on the modes: if the usable pixels contain all crossings of `d + 1` rows and `d + 1` columns,
where `d` is the radial order of the last fitted mode, and the wavefront is a combination of the fitted modes on the usable pixels, the fit returns
the coefficients of this combination. -/
theorem C24_determined (S : Solver) (ny nx : ℕ) (w : Fin ny → Fin nx → ℝ) (u : Fin ny → Fin nx → Bool) (N d : ℕ) (hN : 0 < N)
    (hd : N ≤ (d + 1) * (d + 2) / 2) (nBeam dx dy : ℝ) (hb : 0 < nBeam) (rows : Finset (Fin ny)) (cols : Finset (Fin nx)) (hr : d < rows.card)
    (hc : d < cols.card) (hu : ∀ i ∈ rows, ∀ k ∈ cols, u i k = true) (c₀ : Fin N → ℝ)
    (hw : ∀ i k, u i k = true → w i k = ∑ s : Fin N, fitBasis ny nx nBeam dx dy s i k * c₀ s) :
    fitZernikes S ⟨ny, nx, w⟩ ⟨ny, nx, u⟩ N nBeam dx dy = .ok c₀ :=
  C24_exact_recovery S ny nx w u N hN nBeam dx dy hb c₀ hw fun c h =>
    basis_independent ny nx N d hd nBeam dx dy hb u rows cols hr hc hu c h

/-- **C24.** Round trip with `gen_zernikes` under the same condition. -/
theorem C24_inverts (S : Solver) (A : ℕ) (hA : 0 < A) (h6 : A ≠ 1000000) (N d : ℕ) (hN : 0 < N) (hd : N ≤ (d + 1) * (d + 2) / 2) (c₀ : Fin N → ℝ)
    (xo yo nBeam : ℝ) (hb : 0 < nBeam) (u : Fin A → Fin A → Bool) (rows cols : Finset (Fin A)) (hr : d < rows.card)
    (hc : d < cols.card) (hu : ∀ i ∈ rows, ∀ k ∈ cols, u i k = true) (o : Arr2 ℝ)
    (ho : genZernikes ((List.finRange N).map fun s : Fin N => ((s : ℕ) : ℤ) + 1) ((List.finRange N).map c₀) xo yo nBeam A = .ok o) :
    fitZernikes S o ⟨A, A, u⟩ N nBeam xo yo = .ok c₀ :=
  C24_round_trip S A hA h6 N hN c₀ xo yo nBeam hb u o ho fun c h =>
    basis_independent A A N d hd nBeam xo yo hb u rows cols hr hc hu c h

/-- The first eleven modes (order four) need five rows and five columns; all pixels of a `6 x 6` array will do. -/
example (S : Solver) (c₀ : Fin 11 → ℝ) : ∃ o, genZernikes ((List.finRange 11).map fun s : Fin 11 => ((s : ℕ) : ℤ) + 1) ((List.finRange 11).map c₀)
    0.3 (-0.2) 5 6 = .ok o ∧ fitZernikes S o ⟨6, 6, fun _ _ => true⟩ 11 5 0.3 (-0.2) = .ok c₀ := by
  have hg := gen_eq ((List.finRange 11).map fun s : Fin 11 => (((s : ℕ) : ℤ) + 1, c₀ s)) 0.3 (-0.2) 5 6
    ⟨by simp [List.finRange_succ], by
        intro p hp
        obtain ⟨s, _, rfl⟩ := List.mem_map.mp hp
        simp only
        omega, by norm_num, by norm_num⟩
  simp only [List.map_map, Function.comp_def] at hg
  exact ⟨_, hg, C24_inverts S 6 (by norm_num) (by norm_num) 11 4 (by norm_num) (by norm_num) c₀ 0.3 (-0.2) 5 (by norm_num) _ Finset.univ Finset.univ
    (by simp) (by simp) (by simp) _ hg⟩

end Coralign.Props
