import Verif.Model.DarkHoleDouble
import Verif.Props.DoubleDyadic
import Verif.Props.DarkHole
import Verif.Props.PlateSolvFails
import Mathlib.NumberTheory.Real.Irrational

/-!
# C102: dark-hole rectangles and annuli in double precision
-/

namespace Coralign.Props

open Coralign Coralign.Spec

/-- The coordinates of a pixel, rounded once. -/
theorem dhArrayD_isMask (nr nc : ℕ) (hnr : nr ≤ 2 ^ 50) (hnc : nc ≤ 2 ^ 50) (xo yo : ℝ) (P : ℝ → ℝ → Prop) :
    IsMask (dhArrayD nr nc xo yo P) nr nc (fun x y => P (double (x - xo)) (double (y - yo))) := by
  classical
  have axis : ∀ (n : ℕ) (hn : n ≤ 2 ^ 50) (o : ℝ) (z : ℤ), 0 ≤ (n : ℤ) / 2 + z → (n : ℤ) / 2 + z < n →
      shapeAxisD n o ((n : ℤ) / 2 + z).toNat = double (z - o) := by
    intro n hn o z h1 h2
    rw [shapeAxisD_eq n o _ (by omega) hn]
    congr 1
    have : ((((n : ℤ) / 2 + z).toNat : ℕ) : ℤ) - ((n / 2 : ℕ) : ℤ) = z := by omega
    have h' : ((((n : ℤ) / 2 + z).toNat : ℕ) : ℝ) - ((n / 2 : ℕ) : ℝ) = z := by exact_mod_cast this
    rw [h']
  refine ⟨rfl, rfl, fun k l hr => ?_⟩
  unfold Arr2.centered
  unfold Reaches at hr
  refine ⟨_, Arr2.px_of_inB _ (by exact hr), ?_⟩
  change decide (P (shapeAxisD nc xo ((nc : ℤ) / 2 + l).toNat) (shapeAxisD nr yo ((nr : ℤ) / 2 + k).toNat)) = true ↔ _
  rw [axis nc hnc xo l (by omega) (by omega), axis nr hnr yo k (by omega) (by omega)]
  exact decide_eq_true_iff

theorem genRectangleD_mask (nr nc : ℕ) (hr : 1 ≤ nr) (hc : 1 ≤ nc) (hnr : nr ≤ 2 ^ 50) (hnc : nc ≤ 2 ^ 50) (xo yo w h : ℝ) (hw : 0 < w) (hh : 0 < h) :
    ∃ m, genRectangleD nr nc xo yo w h = .ok m ∧
      IsMask m nr nc fun x y => double |x - xo| ≤ double (w / 2) ∧ double |y - yo| ≤ double (h / 2) := by
  refine ⟨_, ?_, (dhArrayD_isMask nr nc hnr hnc xo yo (fun x y => |x| ≤ double (w / 2) ∧ |y| ≤ double (h / 2))).congr fun x y => ?_⟩
  · unfold genRectangleD dhShapeOk
    rw [if_neg (by push Not; omega), if_neg (by push Not; exact ⟨hw, hh⟩)]
  · have e : ∀ z : ℝ, |double z| = double |z| := by
      intro z
      rcases le_total 0 z with hz | hz
      · rw [abs_of_nonneg hz, abs_of_nonneg (double_nonneg hz)]
      · have := double_nonneg (neg_nonneg.mpr hz)
        rw [double_neg] at this
        rw [abs_of_nonpos hz, double_neg, abs_of_nonpos (by linarith)]
    rw [e, e]

theorem genAnnulusD_mask (nr nc : ℕ) (hr : 1 ≤ nr) (hc : 1 ≤ nc) (hnr : nr ≤ 2 ^ 50) (hnc : nc ≤ 2 ^ 50) (xo yo ri ro : ℝ) (h1 : 0 ≤ ri) (h2 : ri ≤ ro) :
    ∃ m, genAnnulusD nr nc xo yo ri ro = .ok m ∧
      IsMask m nr nc fun x y => ri ≤ rhoD (double (x - xo)) (double (y - yo)) ∧ rhoD (double (x - xo)) (double (y - yo)) ≤ ro := by
  refine ⟨_, ?_, dhArrayD_isMask nr nc hnr hnc xo yo (fun x y => rhoD x y ≥ ri ∧ rhoD x y ≤ ro)⟩
  unfold genAnnulusD dhShapeOk
  rw [if_neg (by push Not; omega), if_neg (by push Not; exact ⟨h1, by linarith⟩), if_neg (by linarith)]

theorem le_of_double_le {x b : ℝ} (hx : 0 ≤ x) (hb : (2 : ℝ) ^ (-900 : ℤ) ≤ b) (h : double x ≤ double b) : x ≤ b * (1 + 1 / 2 ^ 51) := by
  have hb0 : 0 < b := (two_zpow_pos _).trans_le hb
  have e1 := (abs_le.mp (double_error x)).1
  have e2 := (abs_le.mp (double_error b)).2
  rw [abs_of_nonneg hx] at e1
  rw [abs_of_pos hb0] at e2
  have hu : underflow ≤ b / 2 ^ 100 := by
    unfold underflow
    have : (2 : ℝ) ^ (-1075 : ℤ) ≤ (2 : ℝ) ^ (-900 : ℤ) * (2 : ℝ) ^ (-100 : ℤ) := by rw [← two_zpow_add]; exact two_zpow_mono (by norm_num)
    calc _ ≤ _ := this
      _ ≤ b * (2 : ℝ) ^ (-100 : ℤ) := mul_le_mul_of_nonneg_right hb (two_zpow_pos _).le
      _ = b / 2 ^ 100 := by norm_num; ring
  have hr : roundoff = 1 / 2 ^ 53 := by unfold roundoff; norm_num
  rw [hr] at e1 e2
  norm_num at e1 e2 hu ⊢
  linarith

/-- A rectangle in double precision contains every pixel of the exact one, and a pixel it has in excess lies beyond the edge by no more than rounding. -/
theorem C102_rectangle (nr nc : ℕ) (hr : 1 ≤ nr) (hc : 1 ≤ nc) (hnr : nr ≤ 2 ^ 50) (hnc : nc ≤ 2 ^ 50) (xo yo w h : ℝ)
    (hw : (2 : ℝ) ^ (-899 : ℤ) ≤ w) (hh : (2 : ℝ) ^ (-899 : ℤ) ≤ h) :
    ∃ m, genRectangleD nr nc xo yo w h = .ok m ∧ m.nr = nr ∧ m.nc = nc ∧ ∀ k l : ℤ, Reaches nr nc k l → ∃ b, m.centered k l = some b ∧
      ((Region.rectangle xo yo w h).covers l k → b = true) ∧
      (b = true → |(l : ℝ) - xo| ≤ w / 2 * (1 + 1 / 2 ^ 51) ∧ |(k : ℝ) - yo| ≤ h / 2 * (1 + 1 / 2 ^ 51)) := by
  have hw0 : 0 < w := (two_zpow_pos _).trans_le hw
  have hh0 : 0 < h := (two_zpow_pos _).trans_le hh
  have half : ∀ x : ℝ, (2 : ℝ) ^ (-899 : ℤ) ≤ x → (2 : ℝ) ^ (-900 : ℤ) ≤ x / 2 := by
    intro x hx
    have : (2 : ℝ) ^ (-899 : ℤ) = 2 * (2 : ℝ) ^ (-900 : ℤ) := by
      rw [show (-899 : ℤ) = 1 + -900 by norm_num, two_zpow_add, zpow_one]
    linarith
  obtain ⟨m, em, a, b, c⟩ := genRectangleD_mask nr nc hr hc hnr hnc xo yo w h hw0 hh0
  refine ⟨m, em, a, b, fun k l hk => ?_⟩
  obtain ⟨v, hv, e⟩ := c k l hk
  exact ⟨v, hv, fun hP => e.mpr ⟨double_mono hP.1, double_mono hP.2⟩,
    fun ht => ⟨le_of_double_le (abs_nonneg _) (half w hw) (e.mp ht).1, le_of_double_le (abs_nonneg _) (half h hh) (e.mp ht).2⟩⟩

/-- For offsets and sides that are binary fractions the rectangle is the exact one. -/
theorem C102_rectangle_exact (nr nc e : ℕ) (hr : 1 ≤ nr) (hc : 1 ≤ nc) (he : e ≤ 1000) (a b : ℤ) (w h : ℤ)
    (hw : 0 < w) (hh : 0 < h) (hw' : w < 2 ^ 53) (hh' : h < 2 ^ 53)
    (hS : ((nr : ℤ) + nc) * 2 ^ e + |a| + |b| ≤ 2 ^ 50) :
    ∃ m, genRectangleD nr nc (a / 2 ^ e) (b / 2 ^ e) (w / 2 ^ e) (h / 2 ^ e) = .ok m ∧
      IsMask m nr nc (Region.rectangle (a / 2 ^ e) (b / 2 ^ e) (w / 2 ^ e) (h / 2 ^ e)).covers := by
  have hp : (0 : ℝ) < 2 ^ e := by positivity
  have hpz : (1 : ℤ) ≤ 2 ^ e := one_le_pow₀ (by norm_num)
  have ha := abs_nonneg a
  have hb := abs_nonneg b
  have hr' : (1 : ℤ) ≤ nr := by exact_mod_cast hr
  have hc' : (1 : ℤ) ≤ nc := by exact_mod_cast hc
  have hsum : ((nr : ℤ) + nc) * 1 ≤ ((nr : ℤ) + nc) * 2 ^ e := mul_le_mul_of_nonneg_left hpz (by omega)
  have hsum' : (nr : ℤ) * 2 ^ e + nc * 2 ^ e ≤ 2 ^ 50 - |a| - |b| := by linarith [add_mul (nr : ℤ) nc (2 ^ e)]
  have hnrp : 0 ≤ (nr : ℤ) * 2 ^ e := by positivity
  have hncp : 0 ≤ (nc : ℤ) * 2 ^ e := by positivity
  obtain ⟨m, em, m1, m2, m3⟩ := genRectangleD_mask nr nc hr hc (by zify; linarith) (by zify; linarith)
    (a / 2 ^ e) (b / 2 ^ e) (w / 2 ^ e) (h / 2 ^ e) (by positivity) (by positivity)
  have side : ∀ s : ℤ, 0 < s → s < 2 ^ 53 → double ((s : ℝ) / 2 ^ e / 2) = (s : ℝ) / 2 ^ e / 2 := by
    intro s h0 h1
    rw [div_div, ← pow_succ]
    exact double_frac s (e + 1) (by rw [abs_of_pos h0]; exact h1) (by omega)
  have coord : ∀ (n : ℕ) (z o : ℤ), (n : ℤ) * 2 ^ e + |o| ≤ 2 ^ 50 → 0 ≤ (n : ℤ) / 2 + z → (n : ℤ) / 2 + z < n →
      double |(z : ℝ) - o / 2 ^ e| = |(z : ℝ) - o / 2 ^ e| := by
    intro n z o h0 h1 h2
    have hz : |z| ≤ n := abs_le.mpr ⟨by omega, by omega⟩
    have e1 : (z : ℝ) - o / 2 ^ e = ((z * 2 ^ e - o : ℤ) : ℝ) / 2 ^ e := by push_cast; field_simp
    rw [e1, abs_div, abs_of_pos hp, ← Int.cast_abs]
    refine double_frac _ e ?_ (by omega)
    rw [abs_abs]
    have h3 : |z * 2 ^ e - o| ≤ |z| * 2 ^ e + |o| := by
      refine (abs_sub _ _).trans ?_
      rw [abs_mul, abs_of_pos (show (0 : ℤ) < 2 ^ e by positivity)]
    have h4 : |z| * 2 ^ e ≤ n * 2 ^ e := mul_le_mul_of_nonneg_right hz (by positivity)
    calc _ ≤ _ := h3
      _ ≤ (2 : ℤ) ^ 50 := by linarith
      _ < 2 ^ 53 := by norm_num
  refine ⟨m, em, m1, m2, fun k l hk => ?_⟩
  obtain ⟨v, hv, ev⟩ := m3 k l hk
  have hk' := hk
  unfold Reaches at hk'
  refine ⟨v, hv, ev.trans ?_⟩
  beta_reduce
  rw [side w hw hw', side h hh hh', coord nc l a (by linarith) (by omega) (by omega), coord nr k b (by linarith) (by omega) (by omega)]
  rfl

/-- An annulus in double precision: a pixel whose distance from the centre is at least `S / 2^50` within both radii is set, and the distance of a pixel
that is set is at most `S / 2^50` outside them, where `S` adds up the sizes and the offsets. -/
theorem C102_annulus (nr nc : ℕ) (hr : 1 ≤ nr) (hc : 1 ≤ nc) (xo yo ri ro : ℝ) (h1 : 0 ≤ ri) (h2 : ri ≤ ro)
    (hS : (nr : ℝ) + nc + |xo| + |yo| ≤ 2 ^ 40) :
    ∃ m, genAnnulusD nr nc xo yo ri ro = .ok m ∧ m.nr = nr ∧ m.nc = nc ∧ ∀ k l : ℤ, Reaches nr nc k l → ∃ b, m.centered k l = some b ∧
      (ri + ((nr : ℝ) + nc + |xo| + |yo|) / 2 ^ 50 ≤ Real.sqrt ((l - xo) ^ 2 + (k - yo) ^ 2) →
        Real.sqrt ((l - xo) ^ 2 + (k - yo) ^ 2) ≤ ro - ((nr : ℝ) + nc + |xo| + |yo|) / 2 ^ 50 → b = true) ∧
      (b = true → ri - ((nr : ℝ) + nc + |xo| + |yo|) / 2 ^ 50 ≤ Real.sqrt ((l - xo) ^ 2 + (k - yo) ^ 2) ∧
        Real.sqrt ((l - xo) ^ 2 + (k - yo) ^ 2) ≤ ro + ((nr : ℝ) + nc + |xo| + |yo|) / 2 ^ 50) := by
  have hx := abs_nonneg xo
  have hy := abs_nonneg yo
  have hr' : (1 : ℝ) ≤ nr := by exact_mod_cast hr
  have hc' : (1 : ℝ) ≤ nc := by exact_mod_cast hc
  have hnr : nr ≤ 2 ^ 50 := by
    have : (nr : ℝ) ≤ 2 ^ 50 := by linarith [show (2 : ℝ) ^ 40 ≤ 2 ^ 50 by norm_num]
    exact_mod_cast this
  have hnc : nc ≤ 2 ^ 50 := by
    have : (nc : ℝ) ≤ 2 ^ 50 := by linarith [show (2 : ℝ) ^ 40 ≤ 2 ^ 50 by norm_num]
    exact_mod_cast this
  obtain ⟨m, em, m1, m2, m3⟩ := genAnnulusD_mask nr nc hr hc hnr hnc xo yo ri ro h1 h2
  refine ⟨m, em, m1, m2, fun k l hk => ?_⟩
  obtain ⟨v, hv, ev⟩ := m3 k l hk
  unfold Reaches at hk
  have bx := reach_abs_le nc l (by omega) (by omega) xo
  have bY := reach_abs_le nr k (by omega) (by omega) yo
  have ce := centre_error ((l : ℝ) - xo) ((k : ℝ) - yo) (by linarith)
  have hroff : roundoff = 1 / 2 ^ 53 := by unfold roundoff; norm_num
  have hle : roundoff * (7 * (|(l : ℝ) - xo| + |(k : ℝ) - yo|) + 1) ≤ ((nr : ℝ) + nc + |xo| + |yo|) / 2 ^ 50 := by
    rw [hroff]; norm_num; linarith
  have ce' := abs_le.mp (ce.trans hle)
  refine ⟨v, hv, fun a b => ev.mpr ⟨by linarith [ce'.1], by linarith [ce'.2]⟩, fun ht => ?_⟩
  obtain ⟨a, b⟩ := ev.mp ht
  exact ⟨by linarith [ce'.2], by linarith [ce'.1]⟩

/-- The comparison of a radius with a distance is exact on a grid of binary fractions. -/
theorem le_rhoD_iff (m n r : ℤ) (e : ℕ) (he : e ≤ 500) (hm : |m| ≤ 2 ^ 25) (hn : |n| ≤ 2 ^ 25) (hr0 : 0 ≤ r) (hr : r ≤ 2 ^ 25) :
    (r : ℝ) / 2 ^ e ≤ rhoD ((m : ℝ) / 2 ^ e) ((n : ℝ) / 2 ^ e) ↔ r ^ 2 ≤ m ^ 2 + n ^ 2 := by
  have hp : (0 : ℝ) < 2 ^ e := by positivity
  have hmm : m ^ 2 ≤ 2 ^ 50 := by rw [← sq_abs]; exact (pow_le_pow_left₀ (abs_nonneg m) hm 2).trans (by norm_num)
  have hnn : n ^ 2 ≤ 2 ^ 50 := by rw [← sq_abs]; exact (pow_le_pow_left₀ (abs_nonneg n) hn 2).trans (by norm_num)
  have hm0 := sq_nonneg m
  have hn0 := sq_nonneg n
  have sq : ∀ k : ℤ, 0 ≤ k ^ 2 → k ^ 2 ≤ 2 ^ 50 → double ((k : ℝ) / 2 ^ e * ((k : ℝ) / 2 ^ e)) = ((k ^ 2 : ℤ) : ℝ) / 2 ^ (2 * e) := by
    intro k h0 hk
    rw [← double_frac (k ^ 2) (2 * e) (by rw [abs_of_nonneg h0]; linarith) (by omega)]
    congr 1
    push_cast
    rw [two_mul, pow_add]
    field_simp
  unfold rhoD
  rw [sq m hm0 hmm, sq n hn0 hnn, ← add_div]
  have es : double ((((m ^ 2 : ℤ) : ℝ) + ((n ^ 2 : ℤ) : ℝ)) / 2 ^ (2 * e)) = ((m ^ 2 + n ^ 2 : ℤ) : ℝ) / 2 ^ (2 * e) := by
    have := double_frac (m ^ 2 + n ^ 2) (2 * e) (by rw [abs_of_nonneg (by positivity)]; linarith) (by omega)
    rw [← this]
    congr 1
    push_cast
    ring
  rw [es]
  have hQ0 : 0 ≤ m ^ 2 + n ^ 2 := by positivity
  generalize m ^ 2 + n ^ 2 = Q at *
  have hsq : Real.sqrt ((Q : ℝ) / 2 ^ (2 * e)) = Real.sqrt Q / 2 ^ e := by
    rw [Real.sqrt_div' _ (by positivity), show (2 : ℝ) ^ (2 * e) = (2 ^ e) ^ 2 by rw [mul_comm, pow_mul], Real.sqrt_sq hp.le]
  rw [hsq]
  have hr0' : (0 : ℝ) ≤ r := by exact_mod_cast hr0
  have hr' : (r : ℝ) ≤ 2 ^ 25 := by exact_mod_cast hr
  constructor
  · intro h
    by_contra hQ
    have h1 : Q + 1 ≤ r ^ 2 := by omega
    have h1' : (Q : ℝ) + 1 ≤ r ^ 2 := by exact_mod_cast h1
    have hQr : (0 : ℝ) ≤ Q := by exact_mod_cast hQ0
    have hs0 := Real.sqrt_nonneg (Q : ℝ)
    have hss := Real.sq_sqrt hQr
    have hsr : Real.sqrt Q ≤ r := Real.sqrt_le_iff.mpr ⟨hr0', by linarith⟩
    have h2 : Real.sqrt Q + 1 / 2 ^ 26 ≤ r := by
      have h3 : 1 ≤ (r - Real.sqrt Q) * (r + Real.sqrt Q) := by nlinarith
      have h4 : r + Real.sqrt Q ≤ 2 ^ 26 := by norm_num at hr' ⊢; linarith
      have h5 : (r - Real.sqrt Q) * (r + Real.sqrt Q) ≤ (r - Real.sqrt Q) * 2 ^ 26 := mul_le_mul_of_nonneg_left h4 (by linarith)
      norm_num at h5 ⊢
      linarith
    have h6 := (abs_le.mp (double_error (Real.sqrt Q / 2 ^ e))).2
    rw [abs_of_nonneg (by positivity)] at h6
    have hu : underflow ≤ 1 / 2 ^ 30 / 2 ^ e := by
      unfold underflow
      have : (1 : ℝ) / 2 ^ 30 / 2 ^ e = (2 : ℝ) ^ (-(30 + (e : ℤ))) := by
        rw [div_div, ← pow_add, zpow_neg, one_div]
        norm_cast
      rw [this]
      exact two_zpow_mono (by omega)
    have hroff : roundoff = 1 / 2 ^ 53 := by unfold roundoff; norm_num
    rw [hroff] at h6
    have h7 : (r : ℝ) / 2 ^ e ≤ (Real.sqrt Q + 1 / 2 ^ 53 * Real.sqrt Q + 1 / 2 ^ 30) / 2 ^ e := by
      have e1 : (Real.sqrt Q + 1 / 2 ^ 53 * Real.sqrt Q + 1 / 2 ^ 30) / 2 ^ e =
          Real.sqrt Q / 2 ^ e + 1 / 2 ^ 53 * (Real.sqrt Q / 2 ^ e) + 1 / 2 ^ 30 / 2 ^ e := by ring
      rw [e1]
      linarith
    rw [div_le_div_iff_of_pos_right hp] at h7
    norm_num at h7 h2 hr'
    linarith
  · intro h
    have h1 : (r : ℝ) ≤ Real.sqrt Q := Real.le_sqrt_of_sq_le (by exact_mod_cast h)
    have h2 := double_mono (div_le_div_of_nonneg_right h1 hp.le)
    rwa [double_frac r e (by rw [abs_of_nonneg hr0]; linarith) (by omega)] at h2

/-- For offsets and radii that are binary fractions of moderate size the annulus is the exact one, its edges included. -/
theorem C102_annulus_exact (nr nc e : ℕ) (hr : 1 ≤ nr) (hc : 1 ≤ nc) (he : e ≤ 500) (a b ri ro : ℤ) (h1 : 0 ≤ ri) (h2 : ri ≤ ro) (h3 : ro ≤ 2 ^ 25)
    (hS : ((nr : ℤ) + nc) * 2 ^ e + |a| + |b| ≤ 2 ^ 25) :
    ∃ m, genAnnulusD nr nc (a / 2 ^ e) (b / 2 ^ e) (ri / 2 ^ e) (ro / 2 ^ e) = .ok m ∧
      IsMask m nr nc (Region.annulus (a / 2 ^ e) (b / 2 ^ e) (ri / 2 ^ e) (ro / 2 ^ e)).covers := by
  have hp : (0 : ℝ) < 2 ^ e := by positivity
  have hpz : (1 : ℤ) ≤ 2 ^ e := one_le_pow₀ (by norm_num)
  have ha := abs_nonneg a
  have hb := abs_nonneg b
  have hr' : (1 : ℤ) ≤ nr := by exact_mod_cast hr
  have hc' : (1 : ℤ) ≤ nc := by exact_mod_cast hc
  have hsum : ((nr : ℤ) + nc) * 1 ≤ ((nr : ℤ) + nc) * 2 ^ e := mul_le_mul_of_nonneg_left hpz (by omega)
  have hsum' : (nr : ℤ) * 2 ^ e + nc * 2 ^ e ≤ 2 ^ 25 - |a| - |b| := by linarith [add_mul (nr : ℤ) nc (2 ^ e)]
  have hnrp : 0 ≤ (nr : ℤ) * 2 ^ e := by positivity
  have hncp : 0 ≤ (nc : ℤ) * 2 ^ e := by positivity
  have h1' : (0 : ℝ) ≤ ri := by exact_mod_cast h1
  have h2' : (ri : ℝ) ≤ ro := by exact_mod_cast h2
  obtain ⟨m, em, m1, m2, m3⟩ := genAnnulusD_mask nr nc hr hc (by zify; linarith) (by zify; linarith)
    (a / 2 ^ e) (b / 2 ^ e) (ri / 2 ^ e) (ro / 2 ^ e) (by positivity) (div_le_div_of_nonneg_right h2' hp.le)
  have size : ∀ (n : ℕ) (z o : ℤ), (n : ℤ) * 2 ^ e + |o| ≤ 2 ^ 25 → 0 ≤ (n : ℤ) / 2 + z → (n : ℤ) / 2 + z < n → |z * 2 ^ e - o| ≤ 2 ^ 25 := by
    intro n z o h0 h1 h2
    have hz : |z| ≤ n := abs_le.mpr ⟨by omega, by omega⟩
    have h3 : |z * 2 ^ e - o| ≤ |z| * 2 ^ e + |o| := by
      refine (abs_sub _ _).trans ?_
      rw [abs_mul, abs_of_pos (show (0 : ℤ) < 2 ^ e by positivity)]
    have h4 : |z| * 2 ^ e ≤ n * 2 ^ e := mul_le_mul_of_nonneg_right hz (by positivity)
    linarith
  refine ⟨m, em, m1, m2, fun k l hk => ?_⟩
  obtain ⟨v, hv, ev⟩ := m3 k l hk
  unfold Reaches at hk
  refine ⟨v, hv, ev.trans ?_⟩
  have sx := size nc l a (by linarith) (by omega) (by omega)
  have sy := size nr k b (by linarith) (by omega) (by omega)
  have ex : (l : ℝ) - a / 2 ^ e = ((l * 2 ^ e - a : ℤ) : ℝ) / 2 ^ e := by push_cast; field_simp
  have ey : (k : ℝ) - b / 2 ^ e = ((k * 2 ^ e - b : ℤ) : ℝ) / 2 ^ e := by push_cast; field_simp
  unfold Region.covers
  beta_reduce
  simp only []
  rw [ex, ey]
  generalize l * 2 ^ e - a = X at *
  generalize k * 2 ^ e - b = Y at *
  rw [double_frac X e (by linarith) (by omega), double_frac Y e (by linarith) (by omega),
    le_rhoD_iff X Y ri e he sx sy h1 (h2.trans h3), rhoD_le_iff X Y ro e he sx sy (h1.trans h2) h3]
  have hpp : (0 : ℝ) < (2 ^ e) ^ 2 := by positivity
  simp only [div_pow, ← add_div]
  rw [div_le_div_iff_of_pos_right hpp, div_le_div_iff_of_pos_right hpp]
  constructor
  · rintro ⟨p, q⟩; exact ⟨by exact_mod_cast p, by exact_mod_cast q⟩
  · rintro ⟨p, q⟩; exact ⟨by exact_mod_cast p, by exact_mod_cast q⟩

/-- A wider range of radii never loses a pixel, whatever the rounding. -/
theorem C102_annulus_monotone (nr nc : ℕ) (hr : 1 ≤ nr) (hc : 1 ≤ nc) (hnr : nr ≤ 2 ^ 50) (hnc : nc ≤ 2 ^ 50) (xo yo ri ro si so : ℝ) (h0 : 0 ≤ si)
    (h1 : si ≤ ri) (h2 : ri ≤ ro) (h3 : ro ≤ so) :
    ∃ a b, genAnnulusD nr nc xo yo ri ro = .ok a ∧ genAnnulusD nr nc xo yo si so = .ok b ∧
      ∀ k l : ℤ, Reaches nr nc k l → a.centered k l = some true → b.centered k l = some true := by
  obtain ⟨a, ea, _, _, ha⟩ := genAnnulusD_mask nr nc hr hc hnr hnc xo yo ri ro (h0.trans h1) h2
  obtain ⟨b, eb, _, _, hb⟩ := genAnnulusD_mask nr nc hr hc hnr hnc xo yo si so h0 (by linarith)
  refine ⟨a, b, ea, eb, fun k l hk ht => ?_⟩
  obtain ⟨v, hv, ev⟩ := ha k l hk
  obtain ⟨u, hu, eu⟩ := hb k l hk
  rw [hv] at ht
  obtain ⟨p, q⟩ := ev.mp (Option.some.inj ht)
  rw [hu, eu.mpr ⟨by linarith, by linarith⟩]

/-- Mirroring the offset mirrors the mask, and exchanging the axes transposes it, to the last bit. -/
theorem C102_annulus_mirror (nr nc : ℕ) (hr : 1 ≤ nr) (hc : 1 ≤ nc) (hnr : nr ≤ 2 ^ 50) (hnc : nc ≤ 2 ^ 50) (xo yo ri ro : ℝ) (h1 : 0 ≤ ri) (h2 : ri ≤ ro) :
    ∃ a mx my t, genAnnulusD nr nc xo yo ri ro = .ok a ∧ genAnnulusD nr nc (-xo) yo ri ro = .ok mx ∧
      genAnnulusD nr nc xo (-yo) ri ro = .ok my ∧ genAnnulusD nc nr yo xo ri ro = .ok t ∧
      ∀ k l : ℤ, Reaches nr nc k l →
        (Reaches nr nc k (-l) → mx.centered k (-l) = a.centered k l) ∧ (Reaches nr nc (-k) l → my.centered (-k) l = a.centered k l) ∧
        t.centered l k = a.centered k l := by
  obtain ⟨a, ea, _, _, ha⟩ := genAnnulusD_mask nr nc hr hc hnr hnc xo yo ri ro h1 h2
  obtain ⟨mx, ex, _, _, hx⟩ := genAnnulusD_mask nr nc hr hc hnr hnc (-xo) yo ri ro h1 h2
  obtain ⟨my, ey, _, _, hy⟩ := genAnnulusD_mask nr nc hr hc hnr hnc xo (-yo) ri ro h1 h2
  obtain ⟨t, et, _, _, ht⟩ := genAnnulusD_mask nc nr hc hr hnc hnr yo xo ri ro h1 h2
  refine ⟨a, mx, my, t, ea, ex, ey, et, fun k l hk => ?_⟩
  obtain ⟨v, hv, ev⟩ := ha k l hk
  refine ⟨fun hk' => ?_, fun hk' => ?_, ?_⟩
  · obtain ⟨u, hu, eu⟩ := hx k (-l) hk'
    push_cast at eu
    rw [show -(l : ℝ) - -xo = -((l : ℝ) - xo) by ring, double_neg, rhoD_neg_left] at eu
    rw [hu, hv, Bool.eq_iff_iff.mpr (eu.trans ev.symm)]
  · obtain ⟨u, hu, eu⟩ := hy (-k) l hk'
    push_cast at eu
    rw [show -(k : ℝ) - -yo = -((k : ℝ) - yo) by ring, double_neg, rhoD_comm, rhoD_neg_left, rhoD_comm] at eu
    rw [hu, hv, Bool.eq_iff_iff.mpr (eu.trans ev.symm)]
  · obtain ⟨u, hu, eu⟩ := ht l k (by unfold Reaches at hk ⊢; omega)
    beta_reduce at eu
    rw [rhoD_comm] at eu
    rw [hu, hv, Bool.eq_iff_iff.mpr (eu.trans ev.symm)]

/-- Rounding changes a mask on the edge: the annulus whose two radii are the double nearest to `√13` has the pixel two rows and three columns from the
centre in double precision, and not in exact arithmetic. -/
theorem C102_edge :
    ∃ a b, genAnnulusD 9 9 0 0 (double (Real.sqrt 13)) (double (Real.sqrt 13)) = .ok a ∧
      genAnnulus 9 9 0 0 (double (Real.sqrt 13)) (double (Real.sqrt 13)) = .ok b ∧
      a.centered 2 3 = some true ∧ b.centered 2 3 = some false := by
  have hpos : 0 ≤ double (Real.sqrt 13) := double_nonneg (Real.sqrt_nonneg _)
  obtain ⟨a, ea, _, _, ha⟩ := genAnnulusD_mask 9 9 (by norm_num) (by norm_num) (by norm_num) (by norm_num) 0 0
    (double (Real.sqrt 13)) (double (Real.sqrt 13)) hpos le_rfl
  obtain ⟨b, eb, _, _, hb⟩ := genAnnulus_mask 9 9 (by norm_num) (by norm_num) 0 0 (double (Real.sqrt 13)) (double (Real.sqrt 13)) hpos le_rfl
  refine ⟨a, b, by exact_mod_cast ea, by exact_mod_cast eb, ?_, ?_⟩
  · obtain ⟨v, hv, ev⟩ := ha 2 3 (by decide)
    have e3 : double 3 = 3 := by have := double_int 3 (by norm_num); exact_mod_cast this
    have e2 : double 2 = 2 := by have := double_int 2 (by norm_num); exact_mod_cast this
    have e9 : double 9 = 9 := by have := double_int 9 (by norm_num); exact_mod_cast this
    have e4 : double 4 = 4 := by have := double_int 4 (by norm_num); exact_mod_cast this
    have e13 : double 13 = 13 := by have := double_int 13 (by norm_num); exact_mod_cast this
    have e : rhoD (double (((3 : ℤ) : ℝ) - 0)) (double (((2 : ℤ) : ℝ) - 0)) = double (Real.sqrt 13) := by
      unfold rhoD
      norm_num [e3, e2, e9, e4, e13]
    beta_reduce at ev
    rw [e] at ev
    rw [hv, ev.mpr ⟨le_rfl, le_rfl⟩]
  · obtain ⟨v, hv, ev⟩ := hb 2 3 (by decide)
    have hf : v = false := by
      by_contra hne
      have ht : v = true := by simpa using hne
      obtain ⟨p, q⟩ := ev.mp ht
      have e : double (Real.sqrt 13) ^ 2 = 13 := by norm_num at p q; linarith
      have irr : Irrational (Real.sqrt 13) := by
        have := Nat.Prime.irrational_sqrt (p := 13) (by decide)
        exact_mod_cast this
      have e' : Real.sqrt 13 = double (Real.sqrt 13) := by
        have := Real.sqrt_sq hpos
        rwa [e] at this
      refine irr ⟨(npRound (Real.sqrt 13 / ulp (Real.sqrt 13)) : ℚ) * 2 ^ (max (Int.log 2 |Real.sqrt 13| - 52) (-1074) : ℤ), ?_⟩
      conv_rhs => rw [e']
      unfold double ulp
      push_cast
      rfl
    rw [hv, hf]

/-- The same for a rectangle: with its centre `2^-60` pixels off, a rectangle of width 2 reaches one pixel to the left in double precision, and not in
exact arithmetic. -/
theorem C102_rectangle_edge :
    ∃ a b, genRectangleD 9 9 (1 / 2 ^ 60) 0 2 2 = .ok a ∧ genRectangle 9 9 (1 / 2 ^ 60) 0 2 2 = .ok b ∧
      a.centered 0 (-1) = some true ∧ b.centered 0 (-1) = some false := by
  obtain ⟨a, ea, _, _, ha⟩ := genRectangleD_mask 9 9 (by norm_num) (by norm_num) (by norm_num) (by norm_num) (1 / 2 ^ 60) 0 2 2 two_pos two_pos
  obtain ⟨b, eb, _, _, hb⟩ := genRectangle_mask 9 9 (by norm_num) (by norm_num) (1 / 2 ^ 60) 0 2 2 two_pos two_pos
  refine ⟨a, b, by exact_mod_cast ea, by exact_mod_cast eb, ?_, ?_⟩
  · obtain ⟨v, hv, ev⟩ := ha 0 (-1) (by decide)
    have e1 : double 1 = 1 := by have := double_int 1 (by norm_num); exact_mod_cast this
    have e : double |((-1 : ℤ) : ℝ) - 1 / 2 ^ 60| = 1 := by
      have := double_eq_of_above (x := |((-1 : ℤ) : ℝ) - 1 / 2 ^ 60|) (-52) (by norm_num) (by rw [abs_of_neg (by norm_num)]; norm_num)
        (by rw [abs_of_neg (by norm_num)]; norm_num)
      rw [this]; norm_num
    beta_reduce at ev
    rw [e] at ev
    rw [hv, ev.mpr ⟨by norm_num [e1], by norm_num [e1]⟩]
  · obtain ⟨v, hv, ev⟩ := hb 0 (-1) (by decide)
    have hf : v = false := by
      by_contra hne
      have := (ev.mp (by simpa using hne)).1
      rw [abs_of_neg (by norm_num)] at this
      norm_num at this
    rw [hv, hf]

/-- Offsets of a third of a pixel. -/
example : ∃ m, genRectangleD 20 30 (1 / 3) (-(1 / 3)) 10 5 = .ok m ∧ m.centered 2 (-4) = some true ∧ m.centered 0 6 = some false := by
  obtain ⟨m, em, _, _, h⟩ := C102_rectangle 20 30 (by norm_num) (by norm_num) (by norm_num) (by norm_num) (1 / 3) (-(1 / 3)) 10 5
    ((two_zpow_mono (show (-899 : ℤ) ≤ 0 by norm_num)).trans (by norm_num)) ((two_zpow_mono (show (-899 : ℤ) ≤ 0 by norm_num)).trans (by norm_num))
  refine ⟨m, by exact_mod_cast em, ?_, ?_⟩
  · obtain ⟨b, hb, p, _⟩ := h 2 (-4) (by decide)
    rw [hb, p (by unfold Region.covers; norm_num [abs_le])]
  · obtain ⟨b, hb, _, q⟩ := h 0 6 (by decide)
    rw [hb]
    by_contra hne
    have ht : b = true := by simpa using hne
    have := (q ht).1
    norm_num at this

/-- Half a pixel off centre, sides 3 and 4: both edges fall on pixels and are kept. -/
example : ∃ m, genRectangleD 8 8 (1 / 2) 0 3 4 = .ok m ∧ m.centered 2 2 = some true ∧ m.centered 2 3 = some false := by
  obtain ⟨m, em, _, _, h⟩ := C102_rectangle_exact 8 8 1 (by norm_num) (by norm_num) (by norm_num) 1 0 6 8 (by norm_num) (by norm_num) (by norm_num)
    (by norm_num) (by norm_num)
  norm_num at em
  obtain ⟨b, hb, p⟩ := h 2 2 (by decide)
  obtain ⟨c, hc, q⟩ := h 2 3 (by decide)
  refine ⟨m, by simpa using em, ?_, ?_⟩
  · rw [hb, p.mpr (by unfold Region.covers; norm_num [abs_le])]
  · rw [hc]
    by_contra hne
    have := q.mp (by simpa using hne)
    unfold Region.covers at this
    norm_num at this

/-- An annulus between 2 and 4.5 pixels, a third of a pixel off centre. -/
example : ∃ m, genAnnulusD 20 20 (1 / 3) 0 2 (9 / 2) = .ok m ∧ m.centered 0 (-3) = some true ∧ m.centered 0 0 = some false := by
  obtain ⟨m, em, _, _, h⟩ := C102_annulus 20 20 (by norm_num) (by norm_num) (1 / 3) 0 2 (9 / 2) (by norm_num) (by norm_num)
    (by rw [abs_of_pos (by norm_num)]; norm_num)
  refine ⟨m, by exact_mod_cast em, ?_, ?_⟩
  · obtain ⟨b, hb, p, _⟩ := h 0 (-3) (by decide)
    have e : Real.sqrt ((((-3 : ℤ) : ℝ) - 1 / 3) ^ 2 + (((0 : ℤ) : ℝ) - 0) ^ 2) = 10 / 3 := by
      rw [show (((-3 : ℤ) : ℝ) - 1 / 3) ^ 2 + (((0 : ℤ) : ℝ) - 0) ^ 2 = (10 / 3) ^ 2 by norm_num, Real.sqrt_sq (by norm_num)]
    rw [e] at p
    rw [hb, p (by rw [abs_of_pos (by norm_num)]; norm_num) (by rw [abs_of_pos (by norm_num)]; norm_num)]
  · obtain ⟨b, hb, _, q⟩ := h 0 0 (by decide)
    rw [hb]
    by_contra hne
    have := (q (by simpa using hne)).1
    have e : Real.sqrt ((((0 : ℤ) : ℝ) - 1 / 3) ^ 2 + (((0 : ℤ) : ℝ) - 0) ^ 2) = 1 / 3 := by
      rw [show (((0 : ℤ) : ℝ) - 1 / 3) ^ 2 + (((0 : ℤ) : ℝ) - 0) ^ 2 = (1 / 3) ^ 2 by norm_num, Real.sqrt_sq (by norm_num)]
    rw [e, abs_of_pos (by norm_num)] at this
    norm_num at this

/-- Three and four pixels away: the pixel lies on the outer edge of radius 5 and is kept. -/
example : ∃ m, genAnnulusD 16 16 0 0 3 5 = .ok m ∧ m.centered 3 4 = some true ∧ m.centered 3 0 = some true ∧ m.centered 4 4 = some false := by
  obtain ⟨m, em, _, _, h⟩ := C102_annulus_exact 16 16 0 (by norm_num) (by norm_num) (by norm_num) 0 0 3 5 (by norm_num) (by norm_num) (by norm_num)
    (by norm_num)
  obtain ⟨b, hb, p⟩ := h 3 4 (by decide)
  obtain ⟨c, hc, q⟩ := h 3 0 (by decide)
  obtain ⟨d, hd, r⟩ := h 4 4 (by decide)
  norm_num at em
  refine ⟨m, by simpa using em, ?_, ?_, ?_⟩
  · rw [hb, p.mpr (by unfold Region.covers; norm_num)]
  · rw [hc, q.mpr (by unfold Region.covers; norm_num)]
  · rw [hd]
    by_contra hne
    have := r.mp (by simpa using hne)
    unfold Region.covers at this
    norm_num at this

/-- The mask between radii 1 and 1.5 has no pixel that the mask between 0.5 and 2 has not. -/
example : ∃ a b, genAnnulusD 9 9 (1 / 3) 0 1 (3 / 2) = .ok a ∧ genAnnulusD 9 9 (1 / 3) 0 (1 / 2) 2 = .ok b ∧
    ∀ k l : ℤ, Reaches 9 9 k l → a.centered k l = some true → b.centered k l = some true := by
  have := C102_annulus_monotone 9 9 (by norm_num) (by norm_num) (by norm_num) (by norm_num) (1 / 3) 0 1 (3 / 2) (1 / 2) 2 (by norm_num)
    (by norm_num) (by norm_num) (by norm_num)
  exact_mod_cast this

/-- A centred annulus of odd size is its own mirror image. -/
example : ∃ a, genAnnulusD 9 7 0 0 1 3 = .ok a ∧ a.centered 1 (-3) = a.centered 1 3 ∧ a.centered (-4) 2 = a.centered 4 2 := by
  obtain ⟨a, mx, my, t, ha, hx, hy, _, h⟩ := C102_annulus_mirror 9 7 (by norm_num) (by norm_num) (by norm_num) (by norm_num) 0 0 1 3 (by norm_num)
    (by norm_num)
  rw [neg_zero] at hx hy
  have e1 : mx = a := Except.ok.inj (hx.symm.trans ha)
  have e2 : my = a := Except.ok.inj (hy.symm.trans ha)
  subst e1 e2
  exact ⟨_, by exact_mod_cast ha, (h 1 3 (by decide)).1 (by decide), (h 4 2 (by decide)).2.1 (by decide)⟩

/-- Rounding changes nothing in what is refused: a rectangle for sizes or sides that are not positive, an annulus for sizes that are not positive,
a negative radius or an inner radius larger than the outer. -/
theorem C102_refusals (nRows nCols : ℤ) (xo yo p q : ℝ) (e : PyExc) :
    (genRectangleD nRows nCols xo yo p q = .error e ↔ e = .typeError ∧ (nRows ≤ 0 ∨ nCols ≤ 0 ∨ p ≤ 0 ∨ q ≤ 0)) ∧
    (genAnnulusD nRows nCols xo yo p q = .error e ↔
      (e = .typeError ∧ (nRows ≤ 0 ∨ nCols ≤ 0 ∨ p < 0 ∨ q < 0)) ∨ (e = .valueError ∧ 0 < nRows ∧ 0 < nCols ∧ 0 ≤ q ∧ q < p)) := by
  unfold genRectangleD genAnnulusD dhShapeOk
  refine ⟨?_, ?_⟩
  · split_ifs with h1 h2
    · simp only [Except.error.injEq]
      exact ⟨fun h => ⟨h.symm, by tauto⟩, fun h => h.1.symm⟩
    · push Not at h2
      refine ⟨fun h => by simp at h, ?_⟩
      rintro ⟨-, h | h | h | h⟩
      · omega
      · omega
      · linarith [h2.1]
      · linarith [h2.2]
    · simp only [Except.error.injEq]
      exact ⟨fun h => ⟨h.symm, by by_contra hc; push Not at hc; exact h1 ⟨by omega, by omega⟩⟩, fun h => h.1.symm⟩
  · split_ifs with h1 h2 h3
    · simp only [Except.error.injEq]
      refine ⟨fun h => Or.inl ⟨h.symm, by tauto⟩, ?_⟩
      rintro (h | ⟨-, -, -, h, h'⟩)
      · exact h.1.symm
      · rcases h2 with h2 | h2 <;> linarith
    · simp only [Except.error.injEq]
      push Not at h2
      refine ⟨fun h => Or.inr ⟨h.symm, h1.1, h1.2, h2.2, h3⟩, ?_⟩
      rintro (⟨-, h | h | h | h⟩ | h)
      · omega
      · omega
      · linarith [h2.1]
      · linarith [h2.2]
      · exact h.1.symm
    · push Not at h2
      refine ⟨fun h => by simp at h, ?_⟩
      rintro (⟨-, h | h | h | h⟩ | ⟨-, -, -, -, h⟩)
      · omega
      · omega
      · linarith [h2.1]
      · linarith [h2.2]
      · linarith
    · simp only [Except.error.injEq]
      refine ⟨fun h => Or.inl ⟨h.symm, by by_contra hc; push Not at hc; exact h1 ⟨by omega, by omega⟩⟩, ?_⟩
      rintro (h | h)
      · exact h.1.symm
      · exact absurd ⟨h.2.1, h.2.2.1⟩ h1

/-- A rectangle without height, and an annulus turned inside out. -/
example : genRectangleD 8 8 0 0 3 0 = .error .typeError ∧ genAnnulusD 8 8 0 0 5 3 = .error .valueError :=
  ⟨((C102_refusals 8 8 0 0 3 0 .typeError).1).mpr ⟨rfl, by norm_num⟩,
    ((C102_refusals 8 8 0 0 5 3 .valueError).2).mpr (Or.inr ⟨rfl, by norm_num, by norm_num, by norm_num, by norm_num⟩)⟩
end Coralign.Props
