import Verif.Base.DoubleSum
import Mathlib.Analysis.Complex.Norm
import Mathlib.Data.List.Forall2

/-!
# Dot products in double precision, in any order, with or without fused multiply-add
-/

namespace Coralign

/-- A routine for dot products of real vectors, given as lists of pairs: the products, each rounded or (fused multiply-add) not, are added in some order, each product of
a list of `n` pairs going through at most `depth n` additions. -/
def RoundedDot (depth : ℕ → ℕ) (dot : List (ℝ × ℝ) → ℝ) : Prop :=
  dot [] = 0 ∧ ∀ l, l ≠ [] → ∃ (ps : List ℝ) (t : SumTree), List.Forall₂ (fun q p => p = q.1 * q.2 ∨ p = double (q.1 * q.2)) l ps ∧ t.leaves.Perm ps ∧
    t.depth ≤ depth l.length ∧ dot l = t.valueD

/-- The dot product of complex vectors by four real products per element: the real part is a real dot product of twice the length, and so is the imaginary part. -/
noncomputable def complexDot (dot : List (ℝ × ℝ) → ℝ) (l : List (ℂ × ℂ)) : ℂ :=
  ⟨dot (l.flatMap fun q => [(q.1.re, q.2.re), (-q.1.im, q.2.im)]), dot (l.flatMap fun q => [(q.1.re, q.2.im), (q.1.im, q.2.re)])⟩

theorem underflow_gt : 0 < underflow := two_zpow_pos _

theorem list_abs_sum_le (l : List ℝ) : |l.sum| ≤ (l.map fun x => |x|).sum := by
  induction l with
  | nil => simp
  | cons x l ih =>
    rw [List.sum_cons, List.map_cons, List.sum_cons]
    exact (abs_add_le _ _).trans (by linarith)

/-- Rounding errors of a signed sum. -/
theorem SumTree.error (t : SumTree) : |t.valueD - t.leaves.sum| ≤ ((1 + roundoff) ^ t.depth - 1) * (t.leaves.map fun x => |x|).sum +
    (t.leaves.length - 1) * ((1 + roundoff) ^ t.depth * underflow) := by
  have u0 : 0 < roundoff := two_zpow_pos _
  have η0 := underflow_gt
  induction t with
  | leaf x => simp [valueD, leaves, depth]
  | node l r ihl ihr =>
    simp only [valueD, leaves, depth, List.sum_append, List.map_append, List.length_append]
    have hA : 0 ≤ (l.leaves.map fun x => |x|).sum := List.sum_nonneg (by simp)
    have hB : 0 ≤ (r.leaves.map fun x => |x|).sum := List.sum_nonneg (by simp)
    have hLA : |l.leaves.sum| ≤ (l.leaves.map fun x => |x|).sum := list_abs_sum_le _
    have hRB : |r.leaves.sum| ≤ (r.leaves.map fun x => |x|).sum := list_abs_sum_le _
    have nl : (1 : ℝ) ≤ l.leaves.length := by exact_mod_cast List.length_pos_iff.mpr l.leaves_ne
    have nr : (1 : ℝ) ≤ r.leaves.length := by exact_mod_cast List.length_pos_iff.mpr r.leaves_ne
    set d := max l.depth r.depth
    have gl : (1 + roundoff) ^ l.depth ≤ (1 + roundoff) ^ d := pow_le_pow_right₀ (by linarith) (le_max_left _ _)
    have gr : (1 + roundoff) ^ r.depth ≤ (1 + roundoff) ^ d := pow_le_pow_right₀ (by linarith) (le_max_right _ _)
    have g1 : 1 ≤ (1 + roundoff) ^ d := one_le_pow₀ (by linarith)
    rw [pow_succ]
    generalize (1 + roundoff) ^ d = G at *
    generalize (1 + roundoff) ^ l.depth = Gl at *
    generalize (1 + roundoff) ^ r.depth = Gr at *
    generalize (l.leaves.map fun x => |x|).sum = A at *
    generalize (r.leaves.map fun x => |x|).sum = B at *
    generalize l.leaves.sum = L at *
    generalize r.leaves.sum = R at *
    push_cast
    generalize (l.leaves.length : ℝ) = m at *
    generalize (r.leaves.length : ℝ) = n at *
    generalize l.valueD = x at *
    generalize r.valueD = y at *
    have e := double_error (x + y)
    have h1 : |x - L| ≤ (G - 1) * A + (m - 1) * (G * underflow) := by
      refine ihl.trans (add_le_add (mul_le_mul_of_nonneg_right (by linarith) hA) (mul_le_mul_of_nonneg_left (mul_le_mul_of_nonneg_right gl η0.le) (by linarith)))
    have h2 : |y - R| ≤ (G - 1) * B + (n - 1) * (G * underflow) := by
      refine ihr.trans (add_le_add (mul_le_mul_of_nonneg_right (by linarith) hB) (mul_le_mul_of_nonneg_left (mul_le_mul_of_nonneg_right gr η0.le) (by linarith)))
    have hsum : |x + y - (L + R)| ≤ (G - 1) * (A + B) + (m + n - 2) * (G * underflow) := by
      have := abs_add_le (x - L) (y - R)
      rw [show x - L + (y - R) = x + y - (L + R) by ring] at this
      nlinarith
    have hsize : |x + y| ≤ G * (A + B) + (m + n - 2) * (G * underflow) := by
      have t1 : |x + y| ≤ |x + y - (L + R)| + |L + R| := by
        have := abs_add_le (x + y - (L + R)) (L + R)
        rwa [sub_add_cancel] at this
      have t2 := abs_add_le L R
      nlinarith
    have tri : |double (x + y) - (L + R)| ≤ |double (x + y) - (x + y)| + |x + y - (L + R)| := by
      have := abs_add_le (double (x + y) - (x + y)) (x + y - (L + R))
      rwa [sub_add_sub_cancel] at this
    have hu : roundoff * |x + y| ≤ roundoff * (G * (A + B) + (m + n - 2) * (G * underflow)) := mul_le_mul_of_nonneg_left hsize u0.le
    have hG : underflow ≤ G * (1 + roundoff) * underflow := by nlinarith [mul_pos u0 η0]
    calc |double (x + y) - (L + R)| ≤ roundoff * (G * (A + B) + (m + n - 2) * (G * underflow)) + underflow + ((G - 1) * (A + B) + (m + n - 2) * (G * underflow)) := by linarith
      _ = (G * (1 + roundoff) - 1) * (A + B) + (m + n - 2) * (G * (1 + roundoff) * underflow) + underflow := by ring
      _ ≤ (G * (1 + roundoff) - 1) * (A + B) + (m + n - 1) * (G * (1 + roundoff) * underflow) := by linarith

theorem growth {d : ℕ} (hd : d ≤ 2 ^ 50) : (1 + roundoff) ^ d - 1 ≤ d / 2 ^ 52 ∧ (1 + roundoff) ^ d ≤ 2 := by
  have u0 : 0 < roundoff := two_zpow_pos _
  have d0 : (0 : ℝ) ≤ d := Nat.cast_nonneg d
  have db : (d : ℝ) ≤ 1125899906842624 := by exact_mod_cast hd
  have hdu : d * roundoff = d / 2 ^ 53 := by rw [roundoff_eq]; norm_num; ring
  have hx : (d : ℝ) / 2 ^ 53 ≤ 1 / 2 := by norm_num; linarith
  have h1 : (1 + roundoff) ^ d ≤ Real.exp (d / 2 ^ 53) := by
    rw [← hdu, Real.exp_nat_mul]
    exact pow_le_pow_left₀ (by linarith) (by linarith [Real.add_one_le_exp roundoff]) d
  have x0 : (0 : ℝ) ≤ d / 2 ^ 53 := div_nonneg d0 (by norm_num)
  have h2 : Real.exp (d / 2 ^ 53) ≤ 1 + 2 * (d / 2 ^ 53) := by
    generalize (d : ℝ) / 2 ^ 53 = x at *
    have := Real.exp_bound_div_one_sub_of_interval x0 (by linarith)
    refine this.trans ?_
    rw [div_le_iff₀ (by linarith)]
    nlinarith
  have e2 : (d : ℝ) / 2 ^ 52 = 2 * (d / 2 ^ 53) := by norm_num; ring
  constructor
  · rw [e2]; linarith
  · linarith

/-- Rounding errors of a dot product. -/
theorem RoundedDot.error {depth : ℕ → ℕ} {dot : List (ℝ × ℝ) → ℝ} (h : RoundedDot depth dot) (l : List (ℝ × ℝ)) (hd : depth l.length + 1 ≤ 2 ^ 50) :
    |dot l - (l.map fun q => q.1 * q.2).sum| ≤ (depth l.length + 1) / 2 ^ 52 * (l.map fun q => |q.1 * q.2|).sum + 4 * l.length * underflow := by
  have u0 : 0 < roundoff := two_zpow_pos _
  have η0 := underflow_gt
  by_cases hl : l = []
  · subst hl
    simp [h.1]
  obtain ⟨ps, t, hps, hperm, hdep, e⟩ := h.2 l hl
  have hlen : t.leaves.length = l.length := by rw [hperm.length_eq, hps.length_eq]
  have hn1 : (1 : ℝ) ≤ l.length := by exact_mod_cast List.length_pos_iff.mpr hl
  have herr := t.error
  rw [hlen, hperm.sum_eq, (hperm.map fun x : ℝ => |x|).sum_eq] at herr
  -- the products
  have hprod : ∀ (l : List (ℝ × ℝ)) (ps : List ℝ), List.Forall₂ (fun q p => p = q.1 * q.2 ∨ p = double (q.1 * q.2)) l ps →
      |ps.sum - (l.map fun q => q.1 * q.2).sum| ≤ roundoff * (l.map fun q => |q.1 * q.2|).sum + l.length * underflow ∧
      (ps.map fun x => |x|).sum ≤ (1 + roundoff) * (l.map fun q => |q.1 * q.2|).sum + l.length * underflow := by
    intro l ps hf
    induction hf with
    | nil => simp
    | @cons q p l ps hq _ ih =>
      have hqe : |p - q.1 * q.2| ≤ roundoff * |q.1 * q.2| + underflow := by
        rcases hq with rfl | rfl
        · rw [sub_self, abs_zero]; positivity
        · exact double_error _
      have hqs : |p| ≤ (1 + roundoff) * |q.1 * q.2| + underflow := by
        have := abs_add_le (p - q.1 * q.2) (q.1 * q.2)
        rw [sub_add_cancel] at this
        linarith
      simp only [List.sum_cons, List.map_cons, List.length_cons]
      push_cast
      constructor
      · have := abs_add_le (p - q.1 * q.2) (ps.sum - (l.map fun q => q.1 * q.2).sum)
        rw [show p - q.1 * q.2 + (ps.sum - (l.map fun q => q.1 * q.2).sum) = p + ps.sum - (q.1 * q.2 + (l.map fun q => q.1 * q.2).sum) by ring] at this
        linarith [ih.1]
      · linarith [ih.2]
  obtain ⟨p1, p2⟩ := hprod l ps hps
  have hX : 0 ≤ (l.map fun q => |q.1 * q.2|).sum := List.sum_nonneg fun z hz => by
    obtain ⟨q, -, rfl⟩ := List.mem_map.mp hz
    exact abs_nonneg _
  have hG : (1 + roundoff) ^ t.depth ≤ (1 + roundoff) ^ depth l.length := pow_le_pow_right₀ (by linarith) hdep
  have hG1 : 1 ≤ (1 + roundoff) ^ t.depth := one_le_pow₀ (by linarith)
  obtain ⟨g1, g2⟩ := growth hd
  rw [pow_succ] at g1 g2
  push_cast at g1
  rw [e]
  have tri : |t.valueD - (l.map fun q => q.1 * q.2).sum| ≤ |t.valueD - ps.sum| + |ps.sum - (l.map fun q => q.1 * q.2).sum| := by
    have := abs_add_le (t.valueD - ps.sum) (ps.sum - (l.map fun q => q.1 * q.2).sum)
    rwa [sub_add_sub_cancel] at this
  generalize (l.map fun q => |q.1 * q.2|).sum = X at *
  generalize (1 + roundoff) ^ t.depth = G at *
  generalize (1 + roundoff) ^ depth l.length = H at *
  generalize (l.length : ℝ) = n at *
  have G2 : G ≤ 2 := by nlinarith
  have h1 : (G - 1) * (ps.map fun x => |x|).sum ≤ (G - 1) * ((1 + roundoff) * X + n * underflow) := mul_le_mul_of_nonneg_left p2 (by linarith)
  have nη : 0 ≤ n * underflow := by positivity
  have h2 : (n - 1) * (G * underflow) ≤ 2 * (n * underflow) := by
    have : (n - 1) * (G * underflow) ≤ n * (G * underflow) := mul_le_mul_of_nonneg_right (by linarith) (by positivity)
    nlinarith
  have h3 : (G - 1) * (n * underflow) ≤ 1 * (n * underflow) := mul_le_mul_of_nonneg_right (by linarith) nη
  have h4 : (G * (1 + roundoff) - 1) * X ≤ (depth l.length + 1) / 2 ^ 52 * X := by
    refine mul_le_mul_of_nonneg_right ?_ hX
    nlinarith
  calc _ ≤ (G - 1) * ((1 + roundoff) * X + n * underflow) + 2 * (n * underflow) + (roundoff * X + n * underflow) := by linarith
    _ = (G * (1 + roundoff) - 1) * X + (G - 1) * (n * underflow) + 3 * (n * underflow) := by ring
    _ ≤ _ := by linarith

theorem sum_flatMap_two {ι : Type} (l : List ι) (f g : ι → ℝ × ℝ) (F : ℝ × ℝ → ℝ) :
    ((l.flatMap fun q => [f q, g q]).map F).sum = (l.map fun q => F (f q) + F (g q)).sum := by
  induction l with
  | nil => simp
  | cons q l ih =>
    simp only [List.flatMap_cons, List.map_append, List.map_cons, List.map_nil, List.sum_append, List.sum_cons, List.sum_nil, ih]
    ring

theorem length_flatMap_two {ι : Type} (l : List ι) (f g : ι → ℝ × ℝ) : (l.flatMap fun q => [f q, g q]).length = 2 * l.length := by
  induction l with
  | nil => simp
  | cons q l ih =>
    simp only [List.flatMap_cons, List.length_append, List.length_cons, List.length_nil, ih]
    ring

theorem cross_le (a b c d : ℝ) : |a * c| + |b * d| ≤ Real.sqrt (a ^ 2 + b ^ 2) * Real.sqrt (c ^ 2 + d ^ 2) := by
  rw [← Real.sqrt_mul (by positivity)]
  apply Real.le_sqrt_of_sq_le
  rw [abs_mul, abs_mul, add_sq, mul_pow, mul_pow, sq_abs, sq_abs, sq_abs, sq_abs, ← sq_abs a, ← sq_abs b, ← sq_abs c, ← sq_abs d]
  nlinarith [sq_nonneg (|a| * |d| - |b| * |c|)]

theorem complex_norm_sqrt (z : ℂ) : ‖z‖ = Real.sqrt (z.re ^ 2 + z.im ^ 2) := by
  rw [Complex.norm_def, Complex.normSq_apply]
  congr 1
  ring

theorem re_list_sum (l : List (ℂ × ℂ)) : ((l.map fun q : ℂ × ℂ => q.1 * q.2).sum).re = (l.map fun q => q.1.re * q.2.re + -q.1.im * q.2.im).sum := by
  induction l with
  | nil => simp
  | cons q l ih =>
    rw [List.map_cons, List.sum_cons, List.map_cons, List.sum_cons, Complex.add_re, Complex.mul_re, ih]
    ring

theorem im_list_sum (l : List (ℂ × ℂ)) : ((l.map fun q : ℂ × ℂ => q.1 * q.2).sum).im = (l.map fun q => q.1.re * q.2.im + q.1.im * q.2.re).sum := by
  induction l with
  | nil => simp
  | cons q l ih => rw [List.map_cons, List.sum_cons, List.map_cons, List.sum_cons, Complex.add_im, Complex.mul_im, ih]

/-- Rounding errors of a complex dot product. -/
theorem complexDot_error {depth : ℕ → ℕ} {dot : List (ℝ × ℝ) → ℝ} (h : RoundedDot depth dot) (l : List (ℂ × ℂ)) (hd : depth (2 * l.length) + 1 ≤ 2 ^ 50) :
    ‖complexDot dot l - (l.map fun q : ℂ × ℂ => q.1 * q.2).sum‖ ≤
      2 * (depth (2 * l.length) + 1) / 2 ^ 52 * (l.map fun q : ℂ × ℂ => ‖q.1‖ * ‖q.2‖).sum + 16 * l.length * underflow := by
  have e1 := h.error (l.flatMap fun q => [(q.1.re, q.2.re), (-q.1.im, q.2.im)]) (by rw [length_flatMap_two]; exact hd)
  have e2 := h.error (l.flatMap fun q => [(q.1.re, q.2.im), (q.1.im, q.2.re)]) (by rw [length_flatMap_two]; exact hd)
  rw [sum_flatMap_two, sum_flatMap_two, length_flatMap_two] at e1 e2
  have b1 : (l.map fun q : ℂ × ℂ => |q.1.re * q.2.re| + |-q.1.im * q.2.im|).sum ≤ (l.map fun q : ℂ × ℂ => ‖q.1‖ * ‖q.2‖).sum := by
    refine List.sum_le_sum fun q _ => ?_
    rw [complex_norm_sqrt, complex_norm_sqrt]
    have := cross_le q.1.re (-q.1.im) q.2.re q.2.im
    rwa [neg_sq] at this
  have b2 : (l.map fun q : ℂ × ℂ => |q.1.re * q.2.im| + |q.1.im * q.2.re|).sum ≤ (l.map fun q : ℂ × ℂ => ‖q.1‖ * ‖q.2‖).sum := by
    refine List.sum_le_sum fun q _ => ?_
    rw [complex_norm_sqrt, complex_norm_sqrt]
    have := cross_le q.1.re q.1.im q.2.im q.2.re
    rwa [add_comm (q.2.im ^ 2)] at this
  have hc : (0 : ℝ) ≤ (depth (2 * l.length) + 1) / 2 ^ 52 := by positivity
  have c1 := mul_le_mul_of_nonneg_left b1 hc
  have c2 := mul_le_mul_of_nonneg_left b2 hc
  refine (Complex.norm_le_abs_re_add_abs_im _).trans ?_
  rw [Complex.sub_re, Complex.sub_im, re_list_sum, im_list_sum]
  have d1 : (complexDot dot l).re = dot (l.flatMap fun q => [(q.1.re, q.2.re), (-q.1.im, q.2.im)]) := rfl
  have d2 : (complexDot dot l).im = dot (l.flatMap fun q => [(q.1.re, q.2.im), (q.1.im, q.2.re)]) := rfl
  rw [d1, d2]
  have ec : 2 * ((depth (2 * l.length) : ℝ) + 1) / 2 ^ 52 = 2 * ((depth (2 * l.length) + 1) / 2 ^ 52) := by ring
  rw [ec]
  push_cast at e1 e2
  generalize ((depth (2 * l.length) : ℝ) + 1) / 2 ^ 52 = c at *
  linarith

end Coralign
