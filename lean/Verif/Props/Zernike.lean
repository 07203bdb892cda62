import Verif.Lemmas.Zernike
import Verif.Lemmas.PadCrop
import Mathlib.Tactic.IntervalCases

/-!
# Properties C21, C22, C23, C24 and C65: Noll Zernike polynomials
-/

namespace Coralign.Props

open Coralign Coralign.Spec Finset

/-! ### C21 -/

theorem noll_position (j : ℕ) (hj : 1 ≤ j) : ∃ n t : ℕ, 1 ≤ t ∧ t ≤ n + 1 ∧ j = n * (n + 1) / 2 + t := by
  obtain ⟨n, h1, h2⟩ := exists_tri j hj
  have hd := even_mul_succ_div n
  refine ⟨n, j - n * (n + 1) / 2, by omega, ?_, by omega⟩
  have : (n + 1) * (n + 2) = n * (n + 1) + 2 * (n + 1) := by ring
  omega

/-- **C21.** Every Noll index names a valid mode in the right radial order. -/
theorem C21_valid (j : ℕ) (hj : 1 ≤ j) : ∃ n m : ℕ, nollN j = n ∧ nollM j = m ∧ ValidMode n m ∧
    n * (n + 1) / 2 < j ∧ j ≤ (n + 1) * (n + 2) / 2 := by
  obtain ⟨n, t, h1, h2, rfl⟩ := noll_position j hj
  obtain ⟨hn, hm⟩ := noll_eq n t h1 h2
  refine ⟨n, (((t : ℤ) - n % 2) / 2 * 2 + n % 2).toNat, hn, ?_, ?_, ?_, ?_⟩
  · rw [hm]; omega
  · refine ⟨by omega, ?_⟩
    rw [Nat.even_iff]
    omega
  · omega
  · have hd := even_mul_succ_div n
    have hd2 := even_mul_succ_div (n + 1)
    have : (n + 1) * (n + 2) = n * (n + 1) + 2 * (n + 1) := by ring
    have : (n + 1) * (n + 2) = (n + 1) * (n + 1 + 1) := rfl
    omega

theorem nollRow_eq (n t : ℕ) (h1 : 1 ≤ t) (h2 : t ≤ n + 1) : nollRow (n * (n + 1) / 2 + t) = n := by
  have key : ∀ k : ℕ, (k + 1) * (k + 2) / 2 < n * (n + 1) / 2 + t ↔ k < n := by
    intro k
    constructor
    · intro h
      by_contra hc
      have : (n + 1) * (n + 2) / 2 ≤ (k + 1) * (k + 2) / 2 := Nat.div_le_div_right (Nat.mul_le_mul (by omega) (by omega))
      have e : (n + 1) * (n + 2) = n * (n + 1) + 2 * (n + 1) := by ring
      omega
    · intro h
      have : (k + 1) * (k + 2) / 2 ≤ n * (n + 1) / 2 := Nat.div_le_div_right (Nat.mul_le_mul (by omega) (by omega))
      omega
  have hle : n ≤ n * (n + 1) / 2 + t := by
    have hd := even_mul_succ_div n
    rcases Nat.eq_zero_or_pos n with rfl | hn
    · omega
    · have := Nat.mul_le_mul_left n (show 2 ≤ n + 1 by omega)
      omega
  unfold nollRow
  simp only [key]
  obtain ⟨k, hk⟩ := Nat.exists_eq_add_of_le hle
  rw [hk, List.range_add, List.filter_append, List.length_append]
  rw [List.filter_eq_self.mpr (by simp), List.filter_eq_nil_iff.mpr (by simp), List.length_range, List.length_nil, Nat.add_zero]

/-- **C21.** The order and frequency found for an index are those of Noll's table: rows of increasing order, frequencies increasing along each row. -/
theorem C21_table (j : ℕ) (hj : 1 ≤ j) : nollN j = nollRow j ∧ nollM j = nollFreq j := by
  obtain ⟨n, t, h1, h2, rfl⟩ := noll_position j hj
  obtain ⟨hn, hm⟩ := noll_eq n t h1 h2
  have hr := nollRow_eq n t h1 h2
  refine ⟨by rw [hn, hr], ?_⟩
  rw [hm]
  simp only [nollFreq, hr, Nat.add_sub_cancel_left]
  split_ifs with h <;> push_cast <;> omega

/-- **C21.** Distinct indices name distinct modes: equal `(n, m)` and, when `m > 0`, equal parity (cosine or sine) force
equal indices. -/
theorem C21_injective (j k : ℕ) (hj : 1 ≤ j) (hk : 1 ≤ k) (hn : nollN j = nollN k) (hm : nollM j = nollM k)
    (hs : nollM j ≠ 0 → j % 2 = k % 2) : j = k := by
  obtain ⟨n, t, h1, h2, rfl⟩ := noll_position j hj
  obtain ⟨n', t', h1', h2', rfl⟩ := noll_position k hk
  obtain ⟨an, am⟩ := noll_eq n t h1 h2
  obtain ⟨bn, bm⟩ := noll_eq n' t' h1' h2'
  rw [an, bn] at hn
  have : n = n' := by exact_mod_cast hn
  subst this
  rw [am] at hs
  rw [am, bm] at hm
  generalize n * (n + 1) / 2 = T at *
  by_cases h0 : ((t : ℤ) - n % 2) / 2 * 2 + n % 2 = 0
  · omega
  · have := hs h0
    omega

/-- **C21.** Every valid mode, cosine (even index) and sine (odd index) alike, has an index. -/
theorem C21_surjective (n m s : ℕ) (h : ValidMode n m) (hs : s < 2) :
    ∃ j : ℕ, 1 ≤ j ∧ nollN j = n ∧ nollM j = m ∧ (0 < m → j % 2 = s) := by
  obtain ⟨hmn, he⟩ := h
  rw [Nat.even_iff] at he
  -- positions of frequency `m`: `t = m` and `t = m + 1` (only `t = 1` when `m = 0`)
  rcases Nat.eq_zero_or_pos m with rfl | hm
  · obtain ⟨h1, h2⟩ := noll_eq n 1 le_rfl (by omega)
    refine ⟨n * (n + 1) / 2 + 1, by omega, h1, ?_, by omega⟩
    rw [h2]; omega
  · by_cases hp : (n * (n + 1) / 2 + m) % 2 = s
    · obtain ⟨h1, h2⟩ := noll_eq n m hm (by omega)
      refine ⟨n * (n + 1) / 2 + m, by omega, h1, ?_, fun _ => hp⟩
      rw [h2]; omega
    · obtain ⟨h1, h2⟩ := noll_eq n (m + 1) (by omega) (by omega)
      refine ⟨n * (n + 1) / 2 + (m + 1), by omega, h1, ?_, fun _ => by omega⟩
      rw [h2]; push_cast; omega

/-- **C21.** The documented modes: piston, tip/tilt, focus, astigmatism, coma, trefoil, spherical. -/
theorem C21_documented_modes :
    (nollN 1 = 0 ∧ nollM 1 = 0) ∧ (nollN 2 = 1 ∧ nollM 2 = 1) ∧ (nollN 3 = 1 ∧ nollM 3 = 1) ∧
    (nollN 4 = 2 ∧ nollM 4 = 0) ∧ (nollN 5 = 2 ∧ nollM 5 = 2) ∧ (nollN 6 = 2 ∧ nollM 6 = 2) ∧
    (nollN 7 = 3 ∧ nollM 7 = 1) ∧ (nollN 8 = 3 ∧ nollM 8 = 1) ∧ (nollN 9 = 3 ∧ nollM 9 = 3) ∧
    (nollN 10 = 3 ∧ nollM 10 = 3) ∧ (nollN 11 = 4 ∧ nollM 11 = 0) := by
  refine ⟨?_, ?_, ?_, ?_, ?_, ?_, ?_, ?_, ?_, ?_, ?_⟩
  · simpa using noll_eq 0 1 (by omega) (by omega)
  · simpa using noll_eq 1 1 (by omega) (by omega)
  · simpa using noll_eq 1 2 (by omega) (by omega)
  · simpa using noll_eq 2 1 (by omega) (by omega)
  · simpa using noll_eq 2 2 (by omega) (by omega)
  · simpa using noll_eq 2 3 (by omega) (by omega)
  · simpa using noll_eq 3 1 (by omega) (by omega)
  · simpa using noll_eq 3 2 (by omega) (by omega)
  · simpa using noll_eq 3 3 (by omega) (by omega)
  · simpa using noll_eq 3 4 (by omega) (by omega)
  · simpa using noll_eq 4 1 (by omega) (by omega)

example : ∃ n m : ℕ, nollN (37 : ℕ) = n ∧ nollM (37 : ℕ) = m ∧ ValidMode n m ∧ n * (n + 1) / 2 < 37 ∧ 37 ≤ (n + 1) * (n + 2) / 2 :=
  C21_valid 37 (by norm_num)

/-! ### C22 -/

/-- **C22.** The in-place recurrence yields Noll's factorial coefficients for every valid `(n, m)`. -/
theorem C22_coefficients (n m k : ℕ) (h : ValidMode n m) (hk : k ≤ (n - m) / 2) :
    (zernWork n m).rnum k / ((zernWork n m).d0 k * (zernWork n m).d1 k * (zernWork n m).d2 k) =
      (-1) ^ k * (n - k).factorial / (k.factorial * ((n + m) / 2 - k).factorial * ((n - m) / 2 - k).factorial) :=
  zernWork_coef n m k h hk

/-- **C22.** The computed radial polynomial is `R_n^m`, and equals one at the edge of the pupil. -/
theorem C22_radial (n m : ℕ) (h : ValidMode n m) : (∀ r, zernRp n m r = radial n m r) ∧ zernRp n m 1 = 1 :=
  ⟨zernRp_eq n m h, by rw [zernRp_eq n m h, radial_one n m h]⟩

/-- The sample of mode `j` at a point is Noll's Zernike polynomial there. -/
theorem zernSample_eq (j : ℕ) (hj : 1 ≤ j) (prad x y : ℝ) :
    zernSample j prad x y = zernike (nollN j).toNat (nollM j).toNat (j % 2 = 1)
      (Real.sqrt (x ^ 2 + y ^ 2) / prad) (Complex.arg ⟨x, y⟩) := by
  obtain ⟨n, m, hn, hm, hv, _, _⟩ := C21_valid j hj
  unfold zernSample zernike
  simp only [hn, hm, Int.toNat_natCast]
  rw [zernRp_eq n m hv]
  unfold sincos arctan2
  by_cases h0 : m = 0
  · subst h0; simp
  · rw [if_pos h0, if_neg h0, if_neg h0]
    rcases Nat.mod_two_eq_zero_or_one j with hs | hs
    · have : ((j : ℤ) % 2).toNat = 0 := by omega
      rw [this, hs]; simp; ring
    · have : ((j : ℤ) % 2).toNat = 1 := by omega
      rw [this, hs]; simp; ring

theorem zernSample_mode (j : ℕ) (hj : 1 ≤ j) (prad x y : ℝ) : zernSample j prad x y = mode j prad x y := by
  obtain ⟨hn, hm⟩ := C21_table j hj
  rw [zernSample_eq j hj, hn, hm]
  rfl

/-- **C22.** `xyzern` evaluates Noll's Zernike polynomials: slice `s`, pixel `(i, k)` is the polynomial of order
`orders[s]` at radius `hypot(x, y)/prad` and angle `arctan2(y, x)`, cosine for even and sine for odd indices. -/
theorem C22_xyzern (n m : ℕ) (x y : Fin n → Fin m → ℝ) (prad : ℝ) (orders : List ℕ) (hp : 0 < prad) (hne : orders ≠ [])
    (ho : ∀ j ∈ orders, 1 ≤ j) :
    xyzern ⟨n, m, x⟩ ⟨n, m, y⟩ prad (orders.map (fun j : ℕ => (j : ℤ))) = .ok (orders.map fun j : ℕ => ⟨n, m, fun i k =>
      mode j prad (x i k) (y i k)⟩) := by
  unfold xyzern
  rw [if_neg (not_le.mpr hp), dif_pos ⟨rfl, rfl⟩, if_neg, if_neg (by simpa using hne)]
  · rw [List.map_map]
    congr 1
    refine List.map_congr_left fun j hj => ?_
    simp only [Function.comp, Fin.cast_eq_self, zernSample_mode j (ho j hj)]
  · rintro ⟨j, hj, hle⟩
    obtain ⟨k, hk, rfl⟩ := List.mem_map.mp hj
    have := ho k hk
    omega

theorem mode_piston (prad x y : ℝ) : mode 1 prad x y = 1 := by
  rw [← zernSample_mode 1 le_rfl]
  have h := zernSample_eq 1 le_rfl prad x y
  have hn := C21_documented_modes.1
  rw [Nat.cast_one] at h ⊢
  rw [h, hn.1, hn.2]
  simp [zernike, radial, radialCoef]

/-- **C22.** Zernike 1 (piston) is identically one. -/
theorem C22_piston (n m : ℕ) (x y : Fin n → Fin m → ℝ) (prad : ℝ) (hp : 0 < prad) :
    xyzern ⟨n, m, x⟩ ⟨n, m, y⟩ prad [1] = .ok [Arr2.full n m 1] := by
  have h := C22_xyzern n m x y prad [1] hp (by simp) (by simp)
  simp only [List.map_cons, List.map_nil, mode_piston] at h
  exact h

/-- **C22.** The error contract: anything but a positive radius, grids of equal shape and a non-empty list of positive
orders is refused; a nonpositive radius or order and a shape mismatch with `TypeError`. -/
theorem C22_rejects (x y : Arr2 ℝ) (prad : ℝ) (orders : List ℤ) :
    ((prad ≤ 0 ∨ ¬ (x.nr = y.nr ∧ x.nc = y.nc) ∨ ∃ j ∈ orders, j ≤ 0) → xyzern x y prad orders = .error .typeError) ∧
    (∀ o, xyzern x y prad orders = .ok o →
      0 < prad ∧ x.nr = y.nr ∧ x.nc = y.nc ∧ orders ≠ [] ∧ (∀ j ∈ orders, 0 < j) ∧ o.length = orders.length) := by
  constructor
  · intro h
    unfold xyzern
    by_cases hp : prad ≤ 0
    · rw [if_pos hp]
    rw [if_neg hp]
    by_cases hs : x.nr = y.nr ∧ x.nc = y.nc
    · rw [dif_pos hs, if_pos]
      rcases h with h | h | h
      · exact absurd h hp
      · exact absurd hs h
      · exact h
    · rw [dif_neg hs]
  · intro o ho
    unfold xyzern at ho
    split_ifs at ho with h1 h2 h3 h4
    have := Except.ok.inj ho
    refine ⟨not_le.mp h1, h2.1, h2.2, h4, ?_, by rw [← this, List.length_map]⟩
    intro j hj
    by_contra hc
    exact h3 ⟨j, hj, by omega⟩

example : ValidMode 7 3 ∧ (2 : ℕ) ≤ (7 - 3) / 2 := ⟨⟨by norm_num, by decide⟩, by norm_num⟩

/-! ### C23 -/

/-- Specification: the wavefront `Σ c_s Z_{j_s}` at the point `(x, y)`. -/
noncomputable def zernSum (terms : List (ℤ × ℝ)) (prad x y : ℝ) : ℝ := (terms.map fun p => p.2 * zernSample p.1 prad x y).sum

theorem zernAccum_eq (n : ℕ) (prad : ℝ) (x y : Fin n → Fin n → ℝ) (terms : List (ℤ × ℝ)) :
    zernAccum n (terms.map Prod.snd) ((terms.map Prod.fst).map fun j => ⟨n, n, fun i k => zernSample j prad (x i k) (y i k)⟩)
      = ⟨n, n, fun i k => zernSum terms prad (x i k) (y i k)⟩ := by
  unfold zernAccum
  suffices H : ∀ (terms : List (ℤ × ℝ)) (acc : Fin n → Fin n → ℝ),
      (List.zip (terms.map Prod.snd) ((terms.map Prod.fst).map fun j => (⟨n, n, fun i k => zernSample j prad (x i k) (y i k)⟩ : Arr2 ℝ))).foldl
        (fun acc p => Arr2.ofFn n n fun i k => (acc.px i k).getD 0 + p.1 * (p.2.px i k).getD 0) ⟨n, n, acc⟩
      = ⟨n, n, fun i k => acc i k + zernSum terms prad (x i k) (y i k)⟩ by
    have := H terms (fun _ _ => 0)
    simp only [zero_add] at this
    exact this
  intro terms
  induction terms with
  | nil => intro acc; simp [zernSum]
  | cons p ps ih =>
    intro acc
    simp only [List.map_cons, List.zip_cons_cons, List.foldl_cons]
    have : (Arr2.ofFn n n fun i k => ((⟨n, n, acc⟩ : Arr2 ℝ).px i k).getD 0 +
        p.2 * ((⟨n, n, fun i k => zernSample p.1 prad (x i k) (y i k)⟩ : Arr2 ℝ).px i k).getD 0) =
        ⟨n, n, fun i k => acc i k + p.2 * zernSample p.1 prad (x i k) (y i k)⟩ := by
      unfold Arr2.ofFn
      congr 1
      funext i k
      have h1 := Arr2.px_val (⟨n, n, acc⟩ : Arr2 ℝ) i k
      have h2 := Arr2.px_val (⟨n, n, fun i k => zernSample p.1 prad (x i k) (y i k)⟩ : Arr2 ℝ) i k
      show ((⟨n, n, acc⟩ : Arr2 ℝ).px ((i : ℕ) : ℤ) ((k : ℕ) : ℤ)).getD 0 + p.2 * ((⟨n, n, fun i k =>
        zernSample p.1 prad (x i k) (y i k)⟩ : Arr2 ℝ).px ((i : ℕ) : ℤ) ((k : ℕ) : ℤ)).getD 0 = _
      rw [h1, h2]
      rfl
    rw [this, ih]
    congr 1
    funext i k
    simp only [zernSum, List.map_cons, List.sum_cons]
    ring

/-- Specification: arguments `gen_zernikes` accepts for a list of `(index, coefficient)` terms. -/
structure GenArgs (terms : List (ℤ × ℝ)) (nBeam : ℝ) (nArray : ℤ) : Prop where
  nonempty : terms ≠ []
  pos : ∀ p ∈ terms, 1 ≤ p.1
  beam : 0 < nBeam
  size : 0 < nArray

/-- The size of the returned array. -/
noncomputable def genSize (xo yo nBeam : ℝ) (nArray : ℤ) : ℕ :=
  (if nArray = 1000000 then defaultArray xo yo nBeam else nArray).toNat

theorem gen_eq (terms : List (ℤ × ℝ)) (xo yo nBeam : ℝ) (nArray : ℤ) (h : GenArgs terms nBeam nArray) :
    genZernikes (terms.map Prod.fst) (terms.map Prod.snd) xo yo nBeam nArray =
      .ok ⟨genSize xo yo nBeam nArray, genSize xo yo nBeam nArray, fun i k => zernSum terms (nBeam / 2)
        (((k : ℕ) : ℝ) - ((genSize xo yo nBeam nArray / 2 : ℕ) : ℝ) - xo)
        (((i : ℕ) : ℝ) - ((genSize xo yo nBeam nArray / 2 : ℕ) : ℝ) - yo)⟩ := by
  unfold genZernikes
  rw [if_neg (by simp), if_neg (not_le.mpr h.beam), if_neg (not_le.mpr h.size)]
  simp only [zernGrid]
  unfold xyzern
  have hb : 0 < nBeam / 2 := by have := h.beam; linarith
  rw [if_neg (not_le.mpr hb), dif_pos ⟨rfl, rfl⟩, if_neg, if_neg (by simpa using h.nonempty)]
  · simp only [bind, Except.bind, Fin.cast_eq_self]
    congr 1
    exact zernAccum_eq _ _ _ _ terms
  · rintro ⟨j, hj, hle⟩
    obtain ⟨p, hp, rfl⟩ := List.mem_map.mp hj
    have := h.pos p hp
    omega

theorem genSize_eq (xo yo nBeam : ℝ) (nArray : ℤ) (hb : 0 < nBeam) (hn : 0 < nArray) :
    (genSize xo yo nBeam nArray : ℤ) = if nArray = 1000000 then 2 * ⌈(nBeam + 1 + max |xo| |yo|) / 2⌉ else nArray := by
  unfold genSize
  split_ifs with h
  · unfold defaultArray
    rw [show (1 / 2 : ℝ) * (nBeam + 1 + max |xo| |yo|) = (nBeam + 1 + max |xo| |yo|) / 2 by ring]
    have : 0 < ⌈(nBeam + 1 + max |xo| |yo|) / 2⌉ := by
      rw [Int.ceil_pos]
      have := (abs_nonneg xo).trans (le_max_left |xo| |yo|)
      linarith
    omega
  · omega

theorem zernSum_mode (terms : List (ℤ × ℝ)) (hp : ∀ p ∈ terms, 1 ≤ p.1) (prad x y : ℝ) :
    zernSum terms prad x y = (terms.map fun p => p.2 * mode p.1.toNat prad x y).sum := by
  unfold zernSum
  congr 1
  refine List.map_congr_left fun p h => ?_
  have h1 := hp p h
  rw [← zernSample_mode p.1.toNat (by omega), Int.toNat_of_nonneg (by omega)]

/-- **C23.** The pixel at signed offset `(k, l)` from the centre pixel `n//2` is `Σ c Z_j` at the point
`(l - x_offset, k - y_offset)` with beam radius `nBeam/2`; every pixel of the array is described this way. -/
theorem C23_centred (terms : List (ℤ × ℝ)) (xo yo nBeam : ℝ) (nArray : ℤ) (h : GenArgs terms nBeam nArray) :
    ∃ o, genZernikes (terms.map Prod.fst) (terms.map Prod.snd) xo yo nBeam nArray = .ok o ∧
      (o.nr : ℤ) = (if nArray = 1000000 then 2 * ⌈(nBeam + 1 + max |xo| |yo|) / 2⌉ else nArray) ∧ o.nc = o.nr ∧
      ∀ k l : ℤ, Reaches o.nr o.nc k l →
        o.centered k l = some ((terms.map fun p => p.2 * mode p.1.toNat (nBeam / 2) (l - xo) (k - yo)).sum) := by
  refine ⟨_, gen_eq terms xo yo nBeam nArray h, genSize_eq xo yo nBeam nArray h.beam h.size, rfl, ?_⟩
  intro k l hr
  unfold Reaches at hr
  unfold Arr2.centered
  rw [Arr2.px_of_inB _ hr]
  simp only at hr ⊢
  generalize genSize xo yo nBeam nArray = N at *
  have e : ∀ z : ℤ, 0 ≤ (N : ℤ) / 2 + z → ((((N : ℤ) / 2 + z).toNat : ℕ) : ℝ) - ((N / 2 : ℕ) : ℝ) = z := by
    intro z hz
    have h1 : ((((N : ℤ) / 2 + z).toNat : ℕ) : ℤ) = ((N / 2 : ℕ) : ℤ) + z := by omega
    have h2 := congrArg (fun t : ℤ => (t : ℝ)) h1
    simp only [Int.cast_natCast, Int.cast_add] at h2
    rw [h2]; ring
  rw [e l hr.2.1, e k hr.1.1, zernSum_mode terms h.pos]

/-- **C23.** Crops agree: generating a smaller array is cropping (and generating a larger one extends) the same wavefront,
at whatever size, as long as both sizes are given explicitly. -/
theorem C23_crop_consistent (terms : List (ℤ × ℝ)) (xo yo nBeam : ℝ) (N M : ℕ) (hN : GenArgs terms nBeam N)
    (hM : GenArgs terms nBeam M) (hle : M ≤ N) (h6 : N ≠ 1000000) (h6' : M ≠ 1000000) :
    (genZernikes (terms.map Prod.fst) (terms.map Prod.snd) xo yo nBeam N).bind (fun a => padCrop a [M, M] 0) =
      genZernikes (terms.map Prod.fst) (terms.map Prod.snd) xo yo nBeam M := by
  obtain ⟨a, ha, ha1, ha2, ha3⟩ := C23_centred terms xo yo nBeam N hN
  obtain ⟨b, hb, hb1, hb2, hb3⟩ := C23_centred terms xo yo nBeam M hM
  rw [if_neg (by exact_mod_cast h6)] at ha1
  rw [if_neg (by exact_mod_cast h6')] at hb1
  have ha1 : a.nr = N := by exact_mod_cast ha1
  have hb1 : b.nr = M := by exact_mod_cast hb1
  rw [ha1] at ha2
  rw [hb1] at hb2
  rw [ha, hb]
  simp only [Except.bind]
  rw [padCrop_eq _ _ _ _ hM.size hM.size]
  congr 1
  refine ext_centered hb1.symm hb2.symm ?_
  intro k l hr
  simp only [embed_nr, embed_nc, Int.toNat_natCast] at hr
  rw [embed_centered _ _ _ _ (by simpa using hr), ha3 k l (by rw [ha1, ha2]; unfold Reaches at hr ⊢; omega),
    hb3 k l (by rw [hb1, hb2]; exact hr)]
  rfl

/-- **C23.** The order in which terms are listed does not matter. -/
theorem C23_order_independent (t1 t2 : List (ℤ × ℝ)) (hp : t1.Perm t2) (xo yo nBeam : ℝ) (nArray : ℤ)
    (h : GenArgs t1 nBeam nArray) :
    genZernikes (t1.map Prod.fst) (t1.map Prod.snd) xo yo nBeam nArray =
      genZernikes (t2.map Prod.fst) (t2.map Prod.snd) xo yo nBeam nArray := by
  have h' : GenArgs t2 nBeam nArray :=
    ⟨fun h0 => h.nonempty (by rw [h0] at hp; exact hp.eq_nil), fun p hp' => h.pos p (hp.mem_iff.mpr hp'), h.beam, h.size⟩
  rw [gen_eq _ _ _ _ _ h, gen_eq _ _ _ _ _ h']
  have : ∀ x y, zernSum t1 (nBeam / 2) x y = zernSum t2 (nBeam / 2) x y := by
    intro x y
    unfold zernSum
    exact (hp.map _).sum_eq
  simp only [this]

/-- **C23.** Repeated indices add: `(j, a), (j, b)` is `(j, a + b)`. -/
theorem C23_like_terms_add (j : ℤ) (a b : ℝ) (ts : List (ℤ × ℝ)) (xo yo nBeam : ℝ) (nArray : ℤ)
    (h : GenArgs ((j, a) :: (j, b) :: ts) nBeam nArray) :
    genZernikes (((j, a) :: (j, b) :: ts).map Prod.fst) (((j, a) :: (j, b) :: ts).map Prod.snd) xo yo nBeam nArray =
      genZernikes (((j, a + b) :: ts).map Prod.fst) (((j, a + b) :: ts).map Prod.snd) xo yo nBeam nArray := by
  have h' : GenArgs ((j, a + b) :: ts) nBeam nArray := by
    refine ⟨by simp, ?_, h.beam, h.size⟩
    intro p hp
    rcases List.mem_cons.mp hp with rfl | hp
    · exact h.pos (j, a) (by simp)
    · exact h.pos p (by simp [hp])
  rw [gen_eq _ _ _ _ _ h, gen_eq _ _ _ _ _ h']
  have : ∀ x y, zernSum ((j, a) :: (j, b) :: ts) (nBeam / 2) x y = zernSum ((j, a + b) :: ts) (nBeam / 2) x y := by
    intro x y
    simp only [zernSum, List.map_cons, List.sum_cons]
    ring
  simp only [this]

/-- **C23.** Linearity in the coefficients: with the same indices, coefficients `c*u + v` give `c*U + V` pixel by pixel. -/
theorem C23_linear (inds : List ℤ) (u v : List ℝ) (c : ℝ) (hu : u.length = inds.length) (hv : v.length = inds.length)
    (hne : inds ≠ []) (hpos : ∀ j ∈ inds, 1 ≤ j) (xo yo nBeam : ℝ) (hb : 0 < nBeam) (nArray : ℤ) (hn : 0 < nArray) :
    ∃ (N : ℕ) (U V : Fin N → Fin N → ℝ), genZernikes inds u xo yo nBeam nArray = .ok ⟨N, N, U⟩ ∧
      genZernikes inds v xo yo nBeam nArray = .ok ⟨N, N, V⟩ ∧
      genZernikes inds (List.zipWith (fun a b => c * a + b) u v) xo yo nBeam nArray =
        .ok ⟨N, N, fun i k => c * U i k + V i k⟩ := by
  have args : ∀ w : List ℝ, w.length = inds.length → GenArgs (inds.zip w) nBeam nArray := by
    intro w hw
    refine ⟨?_, ?_, hb, hn⟩
    · intro h0
      have := congrArg List.length h0
      rw [List.length_zip, hw, min_self] at this
      exact hne (List.length_eq_zero_iff.mp this)
    · rintro ⟨j, a⟩ hp
      exact hpos j (List.of_mem_zip hp).1
  have gen : ∀ w : List ℝ, w.length = inds.length → genZernikes inds w xo yo nBeam nArray =
      .ok ⟨genSize xo yo nBeam nArray, genSize xo yo nBeam nArray, fun i k => zernSum (inds.zip w) (nBeam / 2)
        (((k : ℕ) : ℝ) - ((genSize xo yo nBeam nArray / 2 : ℕ) : ℝ) - xo)
        (((i : ℕ) : ℝ) - ((genSize xo yo nBeam nArray / 2 : ℕ) : ℝ) - yo)⟩ := by
    intro w hw
    have := gen_eq (inds.zip w) xo yo nBeam nArray (args w hw)
    rw [List.map_fst_zip hw.ge, List.map_snd_zip hw.le] at this
    exact this
  have hz : (List.zipWith (fun a b => c * a + b) u v).length = inds.length := by
    rw [List.length_zipWith, hu, hv, min_self]
  refine ⟨_, _, _, gen u hu, gen v hv, ?_⟩
  rw [gen _ hz]
  congr 2
  funext i k
  generalize ((k : ℕ) : ℝ) - _ - xo = X
  generalize ((i : ℕ) : ℝ) - _ - yo = Y
  clear args gen hz hne hpos
  induction inds generalizing u v with
  | nil => simp [zernSum]
  | cons j js ih =>
    match u, v, hu, hv with
    | a :: u, b :: v, hu, hv =>
      have := ih u v (by simpa using hu) (by simpa using hv)
      simp only [zernSum, List.zipWith_cons_cons, List.zip_cons_cons, List.map_cons, List.sum_cons] at this ⊢
      rw [this]; ring

/-- Concrete arguments meet the hypotheses: astigmatism and coma on a 32-pixel beam, default array. -/
example : GenArgs [(5, 1e-9), (8, -2e-9)] 32 1000000 :=
  ⟨by simp, by simp, by norm_num, by norm_num⟩

/-! ### C65 -/

/-- Specification: every pixel centre within the beam belongs to the array. -/
def ContainsBeam (N : ℕ) (xo yo nBeam : ℝ) : Prop :=
  ∀ k l : ℤ, ((l : ℝ) - xo) ^ 2 + ((k : ℝ) - yo) ^ 2 ≤ (nBeam / 2) ^ 2 → Reaches N N k l

theorem default_contains (xo yo nBeam : ℝ) (hb : 0 < nBeam) (hx : |xo| < 1) (hy : |yo| < 1) :
    ContainsBeam (genSize xo yo nBeam 1000000) xo yo nBeam := by
  intro k l hkl
  unfold genSize
  rw [if_pos rfl]
  unfold defaultArray
  set o := max |xo| |yo| with ho
  have ho1 : o < 1 := max_lt hx hy
  have ho0 : 0 ≤ o := le_trans (abs_nonneg _) (le_max_left _ _)
  set H := ⌈(1 / 2 : ℝ) * (nBeam + 1 + o)⌉ with hH
  have hle := Int.le_ceil ((1 / 2 : ℝ) * (nBeam + 1 + o))
  rw [← hH] at hle
  have h1 : |(l : ℝ) - xo| ≤ nBeam / 2 := abs_le_of_sq_le_sq (by nlinarith [sq_nonneg ((k : ℝ) - yo)]) (by linarith)
  have h2 : |(k : ℝ) - yo| ≤ nBeam / 2 := abs_le_of_sq_le_sq (by nlinarith [sq_nonneg ((l : ℝ) - xo)]) (by linarith)
  have hxo : |xo| ≤ o := le_max_left _ _
  have hyo : |yo| ≤ o := le_max_right _ _
  rw [abs_le] at h1 h2 hxo hyo
  have a1 : (l : ℝ) < H := by linarith
  have a2 : -(H : ℝ) < l := by linarith
  have a3 : (k : ℝ) < H := by linarith
  have a4 : -(H : ℝ) < k := by linarith
  have a1' : l < H := by exact_mod_cast a1
  have a2' : -H < l := by exact_mod_cast a2
  have a3' : k < H := by exact_mod_cast a3
  have a4' : -H < k := by exact_mod_cast a4
  unfold Reaches
  omega

/-- **C65 (partial).** With both offsets smaller than one pixel the default array contains every pixel centre within the beam.  Missing: larger
offsets, where it is false (`C65_default_array_clips`). -/
theorem C65_default_array_partial (terms : List (ℤ × ℝ)) (xo yo nBeam : ℝ) (h : GenArgs terms nBeam 1000000) (hx : |xo| < 1) (hy : |yo| < 1) :
    ∃ o, genZernikes (terms.map Prod.fst) (terms.map Prod.snd) xo yo nBeam = .ok o ∧ o.nc = o.nr ∧ ContainsBeam o.nr xo yo nBeam :=
  ⟨_, gen_eq terms xo yo nBeam 1000000 h, rfl, default_contains xo yo nBeam h.beam hx hy⟩

/-- **C65.** The full property is false: a 10-pixel beam displaced by 20 pixels does not even have its centre in the array
that `gen_zernikes` chooses ("the smallest even value that fully contains the beam"). -/
theorem C65_default_array_clips : ¬ ∀ (terms : List (ℤ × ℝ)) (xo yo nBeam : ℝ), GenArgs terms nBeam 1000000 →
    ∃ o, genZernikes (terms.map Prod.fst) (terms.map Prod.snd) xo yo nBeam = .ok o ∧ ContainsBeam o.nr xo yo nBeam := by
  intro h
  have hg : GenArgs [(2, 1)] 10 1000000 := ⟨by simp, by simp, by norm_num, by norm_num⟩
  obtain ⟨o, ho, hc⟩ := h [(2, 1)] 20 0 10 hg
  rw [gen_eq _ _ _ _ _ hg] at ho
  cases ho
  have := hc 0 20 (by norm_num)
  have hs : genSize 20 0 10 1000000 = 32 := by
    unfold genSize defaultArray
    rw [if_pos rfl]
    have : ⌈(1 / 2 : ℝ) * (10 + 1 + max |20| |0|)⌉ = 16 := by
      rw [Int.ceil_eq_iff]
      rw [abs_of_pos (by norm_num : (0 : ℝ) < 20), abs_zero, max_eq_left (by norm_num)]
      norm_num
    rw [this]; rfl
  simp only [hs] at this
  unfold Reaches at this
  omega

/-! ### C24 -/

/-- The usable pixels of a map. -/
def Usable (u : Arr2 Bool) (i k : ℕ) : Prop := u.px i k = some true

/-- Specification: the first `N` Zernike polynomials, sampled around the displaced pupil centre, at pixel `(i, k)`. -/
noncomputable def fitBasis (ny nx : ℕ) (nBeam dx dy : ℝ) (s : ℕ) (i k : ℕ) : ℝ :=
  mode (s + 1) (nBeam / 2) ((k : ℝ) - ((nx / 2 : ℕ) : ℝ) - dx) ((i : ℝ) - ((ny / 2 : ℕ) : ℝ) - dy)

theorem fit_eq (S : Solver) (ny nx : ℕ) (w : Fin ny → Fin nx → ℝ) (u : Fin ny → Fin nx → Bool) (N : ℕ) (hN : 0 < N)
    (nBeam dx dy : ℝ) (hb : 0 < nBeam) :
    fitZernikes S ⟨ny, nx, w⟩ ⟨ny, nx, u⟩ N nBeam dx dy = .ok (S.solve (ι := Selected u)
      (fun q (c : Fin N) => fitBasis ny nx nBeam dx dy c q.1.1 q.1.2) (fun q => w q.1.1 q.1.2)) := by
  unfold fitZernikes
  rw [dif_pos ⟨rfl, rfl⟩, if_neg (by omega), if_neg (not_le.mpr hb)]
  simp only [zernGrid]
  unfold xyzern
  rw [if_neg (not_le.mpr (by linarith : 0 < nBeam / 2)), dif_pos ⟨rfl, rfl⟩, if_neg, if_neg]
  · simp only [bind, Except.bind, Fin.cast_eq_self, Int.toNat_natCast]
    congr 2
    funext q c
    have hc := c.isLt
    simp only [List.map_map, List.getElem?_map, List.getElem?_range hc, Option.map_some, Option.getD_some, Function.comp]
    have := Arr2.px_val (⟨ny, nx, fun i k => zernSample ((c : ℕ) + 1) (nBeam / 2) (((k : ℕ) : ℝ) - ((nx / 2 : ℕ) : ℝ) - dx)
      (((i : ℕ) : ℝ) - ((ny / 2 : ℕ) : ℝ) - dy)⟩ : Arr2 ℝ) q.1.1 q.1.2
    simp only at this
    rw [this]
    have hm := zernSample_mode ((c : ℕ) + 1) (by omega)
    push_cast at hm
    simp only [Option.getD_some, hm]
    rfl
  · intro h0
    have := congrArg List.length h0
    simp at this
    omega
  · rintro ⟨j, hj, hle⟩
    obtain ⟨k, hk, rfl⟩ := List.mem_map.mp hj
    omega

/-- **C24.** `fit_zernikes` minimises the squared residual over the usable pixels: no other coefficients do better. -/
theorem C24_least_squares (S : Solver) (ny nx : ℕ) (w : Fin ny → Fin nx → ℝ) (u : Fin ny → Fin nx → Bool) (N : ℕ) (hN : 0 < N)
    (nBeam dx dy : ℝ) (hb : 0 < nBeam) :
    ∃ c : Fin N → ℝ, fitZernikes S ⟨ny, nx, w⟩ ⟨ny, nx, u⟩ N nBeam dx dy = .ok c ∧ ∀ d : Fin N → ℝ,
      ∑ i, ∑ k, (if u i k then ((∑ s : Fin N, fitBasis ny nx nBeam dx dy s i k * c s) - w i k) ^ 2 else 0) ≤
      ∑ i, ∑ k, (if u i k then ((∑ s : Fin N, fitBasis ny nx nBeam dx dy s i k * d s) - w i k) ^ 2 else 0) := by
  refine ⟨_, fit_eq S ny nx w u N hN nBeam dx dy hb, ?_⟩
  intro d
  have hl := S.isLeastSq (fun (q : Selected u) (c : Fin N) => fitBasis ny nx nBeam dx dy c q.1.1 q.1.2) (fun q => w q.1.1 q.1.2) d
  have conv : ∀ g : Fin ny → Fin nx → ℝ, ∑ i, ∑ k, (if u i k then g i k else 0) = ∑ q : Selected u, g q.1.1 q.1.2 := by
    intro g
    have h1 : ∑ i, ∑ j, (if u i j then g i j else 0)
        = ∑ p : Fin ny × Fin nx, if u p.1 p.2 = true then g p.1 p.2 else 0 := by
      rw [← Finset.univ_product_univ, Finset.sum_product]
    rw [h1, ← Finset.sum_filter]
    exact Finset.sum_subtype _ (by simp) (fun p : Fin ny × Fin nx => g p.1 p.2)
  rw [conv, conv]
  exact hl

/-- **C24.** Exact recovery: if the wavefront equals a Zernike expansion on the usable pixels, and the modes are linearly
independent there, the fit returns exactly the expansion's coefficients. -/
theorem C24_exact_recovery (S : Solver) (ny nx : ℕ) (w : Fin ny → Fin nx → ℝ) (u : Fin ny → Fin nx → Bool) (N : ℕ) (hN : 0 < N)
    (nBeam dx dy : ℝ) (hb : 0 < nBeam) (c₀ : Fin N → ℝ)
    (hw : ∀ i k, u i k = true → w i k = ∑ s : Fin N, fitBasis ny nx nBeam dx dy s i k * c₀ s)
    (hind : ∀ d : Fin N → ℝ, (∀ i k, u i k = true → ∑ s : Fin N, fitBasis ny nx nBeam dx dy s i k * d s = 0) → d = 0) :
    fitZernikes S ⟨ny, nx, w⟩ ⟨ny, nx, u⟩ N nBeam dx dy = .ok c₀ := by
  rw [fit_eq S ny nx w u N hN nBeam dx dy hb]
  congr 1
  set A := fun (q : Selected u) (c : Fin N) => fitBasis ny nx nBeam dx dy c q.1.1 q.1.2 with hA
  set x := S.solve A (fun q => w q.1.1 q.1.2)
  have hx := (S.isLeastSq A (fun q : Selected u => w q.1.1 q.1.2)).exact (x₀ := c₀) (fun q => (hw _ _ q.2).symm)
  have := hind (fun s => x s - c₀ s) (by
    intro i k hik
    have h1 := hx ⟨(i, k), hik⟩
    have h2 := hw i k hik
    simp only [fitted, hA] at h1
    simp only [mul_sub, Finset.sum_sub_distrib]
    rw [h1, h2, sub_self])
  funext s
  have := congrFun this s
  simp only [Pi.zero_apply] at this
  linarith

/-- **C24.** Round trip with `gen_zernikes`: fitting the map generated from coefficients of modes `1..N` (on a square array
of given size and with the same beam and offsets) returns these coefficients, when the modes are linearly independent on
the usable pixels. -/
theorem C24_round_trip (S : Solver) (A : ℕ) (hA : 0 < A) (h6 : A ≠ 1000000) (N : ℕ) (hN : 0 < N) (c₀ : Fin N → ℝ)
    (xo yo nBeam : ℝ) (hb : 0 < nBeam) (u : Fin A → Fin A → Bool) (o : Arr2 ℝ)
    (ho : genZernikes ((List.finRange N).map fun s : Fin N => ((s : ℕ) : ℤ) + 1) ((List.finRange N).map c₀) xo yo nBeam A = .ok o)
    (hind : ∀ d : Fin N → ℝ, (∀ i k, u i k = true → ∑ s : Fin N, fitBasis A A nBeam xo yo s i k * d s = 0) → d = 0) :
    fitZernikes S o ⟨A, A, u⟩ N nBeam xo yo = .ok c₀ := by
  have hg := gen_eq ((List.finRange N).map fun s : Fin N => (((s : ℕ) : ℤ) + 1, c₀ s)) xo yo nBeam A
    ⟨by simp only [ne_eq, List.map_eq_nil_iff]; intro h0; have := congrArg List.length h0; simp at this; omega,
      by
        intro p hp
        obtain ⟨s, _, rfl⟩ := List.mem_map.mp hp
        simp only
        omega, hb, by omega⟩
  have hs : genSize xo yo nBeam A = A := by unfold genSize; rw [if_neg (by exact_mod_cast h6)]; rfl
  simp only [List.map_map, Function.comp_def] at hg
  rw [hg, hs] at ho
  obtain rfl := Except.ok.inj ho
  refine C24_exact_recovery S A A _ u N hN nBeam xo yo hb c₀ ?_ hind
  intro i k _
  unfold zernSum fitBasis
  rw [List.map_map, ← List.sum_ofFn, List.ofFn_eq_map]
  congr 1
  refine List.map_congr_left fun s _ => ?_
  have hm := zernSample_mode ((s : ℕ) + 1) (by omega)
  push_cast at hm
  simp only [Function.comp, hm]
  ring

/-- The independence hypothesis is met in a concrete case: piston on a single usable pixel; and a solver exists. -/
example : ∀ d : Fin 1 → ℝ, (∀ i k : Fin 1, true = true → ∑ s : Fin 1, fitBasis 1 1 4 0 0 s i k * d s = 0) → d = 0 := by
  intro d h
  have := h 0 0 rfl
  simp only [Finset.univ_unique, Fin.default_eq_zero, Finset.sum_singleton, fitBasis, Fin.val_zero, Nat.cast_zero, zero_add] at this
  rw [mode_piston, one_mul] at this
  funext s
  rw [Subsingleton.elim s 0]
  exact this

end Coralign.Props
