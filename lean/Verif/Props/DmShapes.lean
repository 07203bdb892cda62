import Verif.Model.DmShapes
import Verif.Props.Zernike
import Mathlib.Analysis.SpecialFunctions.Trigonometric.Bounds

/-!
# Properties C41, C42, C43, C44 and C68: patterns put on a deformable mirror, and height/voltage conversion
-/

namespace Coralign.Props

open Coralign Coralign.Spec Finset

theorem ofFn_congr {nr nc : ℕ} {f g : ℕ → ℕ → ℝ} (h : ∀ i j, i < nr → j < nc → f i j = g i j) :
    Arr2.ofFn nr nc f = Arr2.ofFn nr nc g := by
  unfold Arr2.ofFn
  congr 1
  funext i j
  exact h i j i.isLt j.isLt

theorem ofFn_map (nr nc : ℕ) (f : ℕ → ℕ → ℝ) (g : ℝ → ℝ) :
    (Arr2.ofFn nr nc f).map g = Arr2.ofFn nr nc fun i j => g (f i j) := rfl

theorem toNat_real (z : ℤ) (hz : 0 ≤ z) : ((z.toNat : ℕ) : ℝ) = z := by
  have : ((z.toNat : ℕ) : ℤ) = z := Int.toNat_of_nonneg hz
  exact_mod_cast this

/-! ### C41 -/

theorem mem_strided (start step n i : ℕ) (hs : start < step) (hi : i < n) : i ∈ strided start step n ↔ i % step = start := by
  unfold strided
  simp only [List.mem_map, List.mem_range]
  constructor
  · rintro ⟨k, _, rfl⟩
    rw [Nat.add_mul_mod_self_right, Nat.mod_eq_of_lt hs]
  · intro h
    have hd := Nat.div_add_mod i step
    refine ⟨i / step, ?_, by rw [Nat.mul_comm] at hd; omega⟩
    rw [Nat.lt_iff_add_one_le, Nat.le_div_iff_mul_le (by omega), Nat.add_mul, Nat.one_mul]
    rw [Nat.mul_comm] at hd
    omega

/-- Admissible arguments of `grid`. -/
structure GridArgs (nact xs ys xo yo : ℕ) : Prop where
  xo_lt : xo < xs
  yo_lt : yo < ys
  xs_le : xs ≤ nact
  ys_le : ys ≤ nact

/-- **C41.** `grid` raises exactly the actuators whose row is `yoffset` modulo `yspace` and whose column is `xoffset` modulo
`xspace`, all by the poke size, and leaves the others at zero. -/
theorem C41_grid_lattice {K : Type} [AddCommMonoid K] (nact xs ys xo yo : ℕ) (poke : K) (h : GridArgs nact xs ys xo yo) :
    ∃ o, grid nact xs ys xo yo poke = .ok o ∧ o.nr = nact ∧ o.nc = nact ∧
      ∀ i j : ℕ, i < nact → j < nact →
        o.px i j = some (if i % ys = yo ∧ j % xs = xo then poke else 0) := by
  obtain ⟨h1, h2, h3, h4⟩ := h
  refine ⟨_, by
    unfold grid
    rw [if_neg (by omega), if_neg (by omega), if_neg (by omega), if_neg (by omega), if_neg (by omega)], ?_, ?_, ?_⟩
  · simp
  · simp
  · intro i j hi hj
    rw [Arr2.px_ofFn_in _ (by simp; omega)]
    simp only [Int.toNat_natCast]
    simp only [mem_strided _ _ _ _ h2 hi, mem_strided _ _ _ _ h1 hj, zero_add]

/-- **C41.** The lattices over all offsets partition the actuators: stepping through every offset pokes each actuator exactly
once, so the patterns add up to the uniform poke. -/
theorem C41_grid_partition {K : Type} [AddCommMonoid K] (nact xs ys : ℕ) (poke : K) (hx : 0 < xs) (hy : 0 < ys) (hxn : xs ≤ nact)
    (hyn : ys ≤ nact) :
    ∃ g : ℕ → ℕ → Arr2 K, (∀ xo < xs, ∀ yo < ys, grid nact xs ys xo yo poke = .ok (g xo yo)) ∧
      ∀ i j : ℕ, i < nact → j < nact →
        (∃! p : ℕ × ℕ, p.1 < xs ∧ p.2 < ys ∧ (i % ys = p.2 ∧ j % xs = p.1)) ∧
        ∑ xo ∈ range xs, ∑ yo ∈ range ys, ((g xo yo).px i j).getD 0 = poke := by
  classical
  have hall : ∀ xo yo, ∃ o : Arr2 K, xo < xs → yo < ys → grid nact xs ys xo yo poke = .ok o ∧
      ∀ i j : ℕ, i < nact → j < nact → o.px i j = some (if i % ys = yo ∧ j % xs = xo then poke else 0) := by
    intro xo yo
    by_cases hc : xo < xs ∧ yo < ys
    · obtain ⟨o, h1, _, _, h2⟩ := C41_grid_lattice nact xs ys xo yo poke ⟨hc.1, hc.2, hxn, hyn⟩
      exact ⟨o, fun _ _ => ⟨h1, h2⟩⟩
    · exact ⟨Arr2.full 0 0 0, fun a b => absurd ⟨a, b⟩ hc⟩
  choose g hg using hall
  refine ⟨g, fun xo hxo yo hyo => (hg xo yo hxo hyo).1, fun i j hi hj => ⟨?_, ?_⟩⟩
  · refine ⟨(j % xs, i % ys), ⟨Nat.mod_lt _ hx, Nat.mod_lt _ hy, rfl, rfl⟩, ?_⟩
    rintro ⟨a, b⟩ ⟨_, _, h1, h2⟩
    simp only at h1 h2
    rw [h1, h2]
  · rw [Finset.sum_eq_single (j % xs), Finset.sum_eq_single (i % ys)]
    · rw [(hg _ _ (Nat.mod_lt _ hx) (Nat.mod_lt _ hy)).2 i j hi hj]
      simp
    · intro b hb hne
      rw [(hg _ _ (Nat.mod_lt _ hx) (mem_range.mp hb)).2 i j hi hj]
      simp [hne.symm]
    · intro hb
      exact absurd (mem_range.mpr (Nat.mod_lt _ hy)) hb
    · intro b hb hne
      refine Finset.sum_eq_zero fun c hc => ?_
      rw [(hg _ _ (mem_range.mp hb) (mem_range.mp hc)).2 i j hi hj]
      simp [hne.symm]
    · intro hb
      exact absurd (mem_range.mpr (Nat.mod_lt _ hx)) hb

/-- **C41.** The error contract of `grid`: it answers exactly when `0 ≤ offset < spacing ≤ nact` on both axes; a non-positive
size or spacing or a negative offset is a `TypeError`, the rest a `ValueError`. -/
theorem C41_grid_rejects {K : Type} [AddCommMonoid K] (nact xs ys xo yo : ℤ) (poke : K) :
    ((∃ o, grid nact xs ys xo yo poke = .ok o) ↔ 0 ≤ xo ∧ xo < xs ∧ xs ≤ nact ∧ 0 ≤ yo ∧ yo < ys ∧ ys ≤ nact) ∧
    (grid nact xs ys xo yo poke = .error .typeError ↔ nact ≤ 0 ∨ xs ≤ 0 ∨ ys ≤ 0 ∨ xo < 0 ∨ yo < 0) := by
  unfold grid
  constructor
  · constructor
    · rintro ⟨o, ho⟩
      split_ifs at ho with a b c d e
      omega
    · intro h
      rw [if_neg (by omega), if_neg (by omega), if_neg (by omega), if_neg (by omega), if_neg (by omega)]
      exact ⟨_, rfl⟩
  · constructor
    · intro ho
      split_ifs at ho with a <;> first | exact a | simp at ho
    · intro h
      rw [if_pos h]

example : GridArgs 48 4 6 3 5 := by constructor <;> norm_num

/-! ### C42 -/

theorem sine_eq (nact : ℕ) (dact a phase fx fy : ℝ) (hn : 0 < nact) (hd : 0 < dact) (ha : 0 < a) :
    sine nact dact a phase fx fy = .ok (Arr2.ofFn nact nact fun i j =>
      a * Real.sin (2 * Real.pi * (dmAxis nact j * fx + dmAxis nact i * fy) / dact + phase * Real.pi / 180)) := by
  unfold sine
  rw [if_neg (by rintro (h | h | h) <;> first | omega | linarith)]
  rfl

theorem sine_args {nact : ℤ} {dact a phase fx fy : ℝ} {o : Arr2 ℝ} (h : sine nact dact a phase fx fy = .ok o) :
    ∃ n : ℕ, nact = n ∧ 0 < n ∧ 0 < dact ∧ 0 < a := by
  unfold sine at h
  split_ifs at h with hc
  push Not at hc
  exact ⟨nact.toNat, by omega, by omega, hc.2.1, hc.2.2⟩

/-- **C42.** `sine` answers with an `nact` by `nact` array for every positive size, beam and amplitude, and raises
`TypeError` otherwise. -/
theorem C42_sine_total (nact : ℤ) (dact a phase fx fy : ℝ) :
    (0 < nact ∧ 0 < dact ∧ 0 < a → ∃ o, sine nact dact a phase fx fy = .ok o ∧ (o.nr : ℤ) = nact ∧ (o.nc : ℤ) = nact) ∧
    (¬ (0 < nact ∧ 0 < dact ∧ 0 < a) → sine nact dact a phase fx fy = .error .typeError) := by
  constructor
  · rintro ⟨h1, h2, h3⟩
    obtain ⟨n, rfl⟩ : ∃ n : ℕ, nact = n := ⟨nact.toNat, by omega⟩
    exact ⟨_, sine_eq n dact a phase fx fy (by omega) h2 h3, rfl, rfl⟩
  · intro h
    unfold sine
    rw [if_pos]
    by_contra hc
    push Not at hc
    exact h ⟨hc.1, hc.2.1, hc.2.2⟩

/-- **C42.** No actuator is moved by more than the amplitude. -/
theorem C42_sine_bounded (nact : ℤ) (dact a phase fx fy : ℝ) (o : Arr2 ℝ) (h : sine nact dact a phase fx fy = .ok o)
    (i j : ℤ) (v : ℝ) (hv : o.px i j = some v) : |v| ≤ a := by
  obtain ⟨n, rfl, hn, hd, ha⟩ := sine_args h
  rw [sine_eq n dact a phase fx fy hn hd ha] at h
  obtain rfl := Except.ok.inj h
  rw [Arr2.px_ofFn] at hv
  split_ifs at hv
  rw [← Option.some.inj hv, abs_mul, abs_of_pos ha]
  exact mul_le_of_le_one_right ha.le (Real.abs_sin_le_one _)

/-- **C42.** Half a turn of phase negates the pattern; a full turn leaves it. -/
theorem C42_sine_phase (nact : ℤ) (dact a phase fx fy : ℝ) (o : Arr2 ℝ) (h : sine nact dact a phase fx fy = .ok o) :
    sine nact dact a (phase + 180) fx fy = .ok (o.map fun v => -v) ∧ sine nact dact a (phase + 360) fx fy = .ok o := by
  obtain ⟨n, rfl, hn, hd, ha⟩ := sine_args h
  rw [sine_eq n dact a phase fx fy hn hd ha] at h
  obtain rfl := Except.ok.inj h
  rw [sine_eq n dact a _ fx fy hn hd ha, sine_eq n dact a _ fx fy hn hd ha]
  rw [ofFn_map]
  constructor
  · refine congrArg _ (ofFn_congr fun i j _ _ => ?_)
    rw [← mul_neg, ← Real.sin_add_pi]
    congr 2
    ring
  · refine congrArg _ (ofFn_congr fun i j _ _ => ?_)
    rw [← Real.sin_add_two_pi (2 * Real.pi * (dmAxis n j * fx + dmAxis n i * fy) / dact + phase * Real.pi / 180)]
    congr 2
    ring

/-- **C42.** The pattern scales with its amplitude. -/
theorem C42_sine_linear (nact : ℤ) (dact a c phase fx fy : ℝ) (hc : 0 < c) (o : Arr2 ℝ)
    (h : sine nact dact a phase fx fy = .ok o) : sine nact dact (c * a) phase fx fy = .ok (o.map fun v => c * v) := by
  obtain ⟨n, rfl, hn, hd, ha⟩ := sine_args h
  rw [sine_eq n dact a phase fx fy hn hd ha] at h
  obtain rfl := Except.ok.inj h
  rw [sine_eq n dact _ phase fx fy hn hd (mul_pos hc ha)]
  rw [ofFn_map]
  simp only [mul_assoc]

/-- **C42.** The spatial frequency is in cycles per beam: moving `p` columns and `q` rows changes the phase by
`(p·freqx + q·freqy)/dact` cycles, so whenever that is a whole number the two actuators are moved by the same amount. -/
theorem C42_sine_period (nact : ℤ) (dact a phase fx fy : ℝ) (o : Arr2 ℝ) (h : sine nact dact a phase fx fy = .ok o)
    (i j p q k : ℤ) (hk : (p : ℝ) * fx + q * fy = k * dact) (hi : 0 ≤ i ∧ i < nact) (hj : 0 ≤ j ∧ j < nact)
    (hq : 0 ≤ i + q ∧ i + q < nact) (hp : 0 ≤ j + p ∧ j + p < nact) : o.px (i + q) (j + p) = o.px i j := by
  obtain ⟨n, rfl, hn, hd, ha⟩ := sine_args h
  rw [sine_eq n dact a phase fx fy hn hd ha] at h
  obtain rfl := Except.ok.inj h
  rw [Arr2.px_ofFn_in _ ⟨hq, hp⟩, Arr2.px_ofFn_in _ ⟨hi, hj⟩]
  congr 2
  rw [← Real.sin_add_int_mul_two_pi (2 * Real.pi * (dmAxis n j.toNat * fx + dmAxis n i.toNat * fy) / dact + phase * Real.pi / 180) k]
  congr 1
  unfold dmAxis
  rw [toNat_real _ hi.1, toNat_real _ hj.1, toNat_real _ hq.1, toNat_real _ hp.1]
  push_cast
  field_simp
  linear_combination (360 : ℝ) * hk

/-- **C42.** With zero phase the pattern is odd about the centre of the mirror, which for an even number of actuators is
between the two middle ones. -/
theorem C42_sine_odd (nact : ℤ) (dact a fx fy : ℝ) (o : Arr2 ℝ) (h : sine nact dact a 0 fx fy = .ok o) (i j : ℤ) :
    o.px (nact - 1 - i) (nact - 1 - j) = (o.px i j).map fun v => -v := by
  obtain ⟨n, rfl, hn, hd, ha⟩ := sine_args h
  rw [sine_eq n dact a 0 fx fy hn hd ha] at h
  obtain rfl := Except.ok.inj h
  by_cases hb : (0 ≤ i ∧ i < n) ∧ (0 ≤ j ∧ j < n)
  · rw [Arr2.px_ofFn_in _ (by omega), Arr2.px_ofFn_in _ hb]
    simp only [Option.map_some, Option.some.injEq]
    rw [← mul_neg, ← Real.sin_neg]
    congr 2
    unfold dmAxis
    rw [toNat_real _ hb.1.1, toNat_real _ hb.2.1, toNat_real _ (by omega), toNat_real _ (by omega)]
    push_cast
    ring
  · rw [Arr2.px_ofFn, Arr2.px_ofFn, if_neg hb, if_neg (by omega)]
    rfl

example : ∃ o, sine 48 46.3 1e-9 90 6.5 0 = .ok o ∧ (o.nr : ℤ) = 48 ∧ (o.nc : ℤ) = 48 :=
  (C42_sine_total 48 46.3 1e-9 90 6.5 0).1 (by norm_num)

/-! ### C43 -/

theorem abs_npSinc_le (x : ℝ) : |npSinc x| ≤ 1 := by
  unfold npSinc
  split_ifs with h
  · simp
  · rw [abs_div]
    exact div_le_one_of_le₀ (Real.abs_sin_le_abs) (abs_nonneg _)

theorem npSinc_neg (x : ℝ) : npSinc (-x) = npSinc x := by
  unfold npSinc
  by_cases h : x = 0
  · simp [h]
  · rw [if_neg h, if_neg (neg_ne_zero.mpr h), mul_neg, Real.sin_neg, neg_div_neg_eq]

/-- Admissible arguments of `probe`. -/
structure ProbeArgs (nact : ℤ) (dact height ximin ximax etamin etamax : ℝ) : Prop where
  nact_pos : 0 < nact
  dact_pos : 0 < dact
  height_pos : 0 < height
  xi : ximin < ximax
  eta : etamin < etamax

theorem probe_eq (nact : ℤ) (dact xc yc clock height ximin ximax etamin etamax phase : ℝ)
    (h : ProbeArgs nact dact height ximin ximax etamin etamax) :
    probe nact dact xc yc clock height ximin ximax etamin etamax phase =
      .ok (Arr2.ofFn nact.toNat nact.toNat fun i j =>
        probeVal dact clock height ximin ximax etamin etamax phase
          (dmAxis nact.toNat j - xc) (dmAxis nact.toNat i - yc)) := by
  obtain ⟨h1, h2, h3, h4, h5⟩ := h
  unfold probe
  rw [if_neg (by rintro (h | h | h) <;> first | omega | linarith), if_neg (by linarith), if_neg (by linarith)]

/-- **C43.** `probe` answers exactly on its documented domain: `TypeError` for a non-positive size, beam or height, then
`ValueError` for an empty interval. -/
theorem C43_probe_total (nact : ℤ) (dact xc yc clock height ximin ximax etamin etamax phase : ℝ) :
    (ProbeArgs nact dact height ximin ximax etamin etamax → ∃ o,
      probe nact dact xc yc clock height ximin ximax etamin etamax phase = .ok o ∧ (o.nr : ℤ) = nact ∧ (o.nc : ℤ) = nact) ∧
    (¬ (0 < nact ∧ 0 < dact ∧ 0 < height) →
      probe nact dact xc yc clock height ximin ximax etamin etamax phase = .error .typeError) ∧
    (0 < nact ∧ 0 < dact ∧ 0 < height → ¬ (ximin < ximax ∧ etamin < etamax) →
      probe nact dact xc yc clock height ximin ximax etamin etamax phase = .error .valueError) := by
  refine ⟨fun h => ⟨_, probe_eq nact dact xc yc clock height ximin ximax etamin etamax phase h, ?_, ?_⟩, ?_, ?_⟩
  · have := h.nact_pos; simp; omega
  · have := h.nact_pos; simp; omega
  · intro h
    unfold probe
    rw [if_pos]
    by_contra hc
    push Not at hc
    exact h ⟨hc.1, hc.2.1, hc.2.2⟩
  · rintro ⟨h1, h2, h3⟩ h
    unfold probe
    rw [if_neg (by rintro (h | h | h) <;> first | omega | linarith)]
    by_cases hx : ximin ≥ ximax
    · rw [if_pos hx]
    · rw [if_neg hx, if_pos]
      by_contra hc
      exact h ⟨not_le.mp hx, not_le.mp hc⟩

theorem probeVal_bound (dact clock height ximin ximax etamin etamax phase x y : ℝ) (hd : 0 < dact) (hh : 0 < height)
    (hx : ximin < ximax) (he : etamin < etamax) :
    |probeVal dact clock height ximin ximax etamin etamax phase x y| ≤
      2 * height * (ximax - ximin) * (etamax - etamin) / dact ^ 2 := by
  unfold probeVal
  simp only
  generalize (x * Real.cos (clock * Real.pi / 180) - y * Real.sin (clock * Real.pi / 180)) = X
  generalize (x * Real.sin (clock * Real.pi / 180) + y * Real.cos (clock * Real.pi / 180)) = Y
  have hs := Real.abs_sin_le_one (2 * Real.pi * (X * ((ximin + ximax) / 2) + Y * ((etamin + etamax) / 2)) / dact + phase * Real.pi / 180)
  generalize Real.sin (2 * Real.pi * (X * ((ximin + ximax) / 2) + Y * ((etamin + etamax) / 2)) / dact + phase * Real.pi / 180) = s at hs ⊢
  have h1 := abs_npSinc_le (X / (dact / (ximax - ximin)))
  have h2 := abs_npSinc_le (Y / (dact / (etamax - etamin)))
  generalize npSinc (X / (dact / (ximax - ximin))) = a at h1 ⊢
  generalize npSinc (Y / (dact / (etamax - etamin))) = b at h2 ⊢
  have hA : 0 < ximax - ximin := by linarith
  have hB : 0 < etamax - etamin := by linarith
  have e : height * a * b / (dact / (ximax - ximin) * (dact / (etamax - etamin))) * (2 * s) =
      2 * height * (ximax - ximin) * (etamax - etamin) / dact ^ 2 * (a * b * s) := by
    field_simp
  rw [e, abs_mul, abs_of_pos (a := 2 * height * (ximax - ximin) * (etamax - etamin) / dact ^ 2) (by positivity)]
  refine mul_le_of_le_one_right (by positivity) ?_
  rw [abs_mul, abs_mul]
  exact mul_le_one₀ (mul_le_one₀ h1 (abs_nonneg _) h2) (abs_nonneg _) hs

theorem probe_args {nact : ℤ} {dact xc yc clock height ximin ximax etamin etamax phase : ℝ} {o : Arr2 ℝ}
    (h : probe nact dact xc yc clock height ximin ximax etamin etamax phase = .ok o) :
    ProbeArgs nact dact height ximin ximax etamin etamax := by
  unfold probe at h
  split_ifs at h with h1 h2 h3
  push Not at h1
  exact ⟨h1.1, h1.2.1, h1.2.2, not_le.mp h2, not_le.mp h3⟩

/-- **C43.** Every actuator's probe is at most `2·height·(ximax-ximin)·(etamax-etamin)/dact²`.  That is the normalisation
of a probe whose focal-plane rectangles have amplitude `height`. -/
theorem C43_probe_bounded (nact : ℤ) (dact xc yc clock height ximin ximax etamin etamax phase : ℝ) (o : Arr2 ℝ)
    (h : probe nact dact xc yc clock height ximin ximax etamin etamax phase = .ok o) (i j : ℤ) (v : ℝ)
    (hv : o.px i j = some v) : |v| ≤ 2 * height * (ximax - ximin) * (etamax - etamin) / dact ^ 2 := by
  have ha := probe_args h
  rw [probe_eq _ _ _ _ _ _ _ _ _ _ _ ha] at h
  obtain rfl := Except.ok.inj h
  rw [Arr2.px_ofFn] at hv
  split_ifs at hv
  rw [← Option.some.inj hv]
  exact probeVal_bound _ _ _ _ _ _ _ _ _ _ ha.dact_pos ha.height_pos ha.xi ha.eta

/-- **C43.** The documented bound, "height of sinc peak": partial, because it needs the probed rectangle to have at most half
the area of the beam's `dact` by `dact` square of resolution elements. -/
theorem C43_probe_below_height_partial (nact : ℤ) (dact xc yc clock height ximin ximax etamin etamax phase : ℝ) (o : Arr2 ℝ)
    (h : probe nact dact xc yc clock height ximin ximax etamin etamax phase = .ok o)
    (hsmall : 2 * ((ximax - ximin) * (etamax - etamin)) ≤ dact ^ 2) (i j : ℤ) (v : ℝ)
    (hv : o.px i j = some v) : |v| ≤ height := by
  have ha := probe_args h
  refine (C43_probe_bounded _ _ _ _ _ _ _ _ _ _ _ o h i j v hv).trans ?_
  rw [div_le_iff₀ (by have := ha.dact_pos; positivity)]
  nlinarith [ha.height_pos]

/-- **C43.** Without that condition the documented bound fails: here an accepted probe moves an actuator by eight times
`height`. -/
theorem C43_probe_exceeds_height :
    ∃ o, probe 1 1 0 0 0 1 (-1) 1 (-1) 1 90 = .ok o ∧ o.px 0 0 = some 8 := by
  refine ⟨_, probe_eq 1 1 0 0 0 1 (-1) 1 (-1) 1 90 (by constructor <;> norm_num), ?_⟩
  rw [Arr2.px_ofFn_in _ (by norm_num)]
  have e : (90 : ℝ) * Real.pi / 180 = Real.pi / 2 := by ring
  simp [probeVal, dmAxis, npSinc, e]
  norm_num

/-- **C43.** Half a turn of phase negates the probe and a full turn leaves it; a full turn of clocking leaves it. -/
theorem C43_probe_phase (nact : ℤ) (dact xc yc clock height ximin ximax etamin etamax phase : ℝ) (o : Arr2 ℝ)
    (h : probe nact dact xc yc clock height ximin ximax etamin etamax phase = .ok o) :
    probe nact dact xc yc clock height ximin ximax etamin etamax (phase + 180) = .ok (o.map fun v => -v) ∧
    probe nact dact xc yc clock height ximin ximax etamin etamax (phase + 360) = .ok o ∧
    probe nact dact xc yc (clock + 360) height ximin ximax etamin etamax phase = .ok o := by
  have ha := probe_args h
  rw [probe_eq _ _ _ _ _ _ _ _ _ _ _ ha] at h
  obtain rfl := Except.ok.inj h
  refine ⟨?_, ?_, ?_⟩
  · rw [probe_eq _ _ _ _ _ _ _ _ _ _ _ ha, ofFn_map]
    refine congrArg _ (ofFn_congr fun i j _ _ => ?_)
    unfold probeVal
    simp only
    rw [← mul_neg, ← mul_neg, ← Real.sin_add_pi]
    congr 3
    ring
  · rw [probe_eq _ _ _ _ _ _ _ _ _ _ _ ha]
    refine congrArg _ (ofFn_congr fun i j _ _ => ?_)
    unfold probeVal
    simp only
    congr 2
    rw [show ∀ t : ℝ, t + (phase + 360) * Real.pi / 180 = t + phase * Real.pi / 180 + 2 * Real.pi from fun t => by ring,
      Real.sin_add_two_pi]
  · rw [probe_eq _ _ _ _ _ _ _ _ _ _ _ ha]
    refine congrArg _ (ofFn_congr fun i j _ _ => ?_)
    unfold probeVal
    simp only
    rw [show (clock + 360) * Real.pi / 180 = clock * Real.pi / 180 + 2 * Real.pi by ring, Real.sin_add_two_pi,
      Real.cos_add_two_pi]

/-- **C43.** The probe scales with its height. -/
theorem C43_probe_linear (nact : ℤ) (dact xc yc clock height c ximin ximax etamin etamax phase : ℝ) (hc : 0 < c) (o : Arr2 ℝ)
    (h : probe nact dact xc yc clock height ximin ximax etamin etamax phase = .ok o) :
    probe nact dact xc yc clock (c * height) ximin ximax etamin etamax phase = .ok (o.map fun v => c * v) := by
  have ha := probe_args h
  rw [probe_eq _ _ _ _ _ _ _ _ _ _ _ ha] at h
  obtain rfl := Except.ok.inj h
  rw [probe_eq _ _ _ _ _ _ _ _ _ _ _ ⟨ha.1, ha.2, mul_pos hc ha.3, ha.4, ha.5⟩, ofFn_map]
  refine congrArg _ (ofFn_congr fun i j _ _ => ?_)
  unfold probeVal
  simp only
  ring

/-- **C43.** `xcenter` and `ycenter` translate the pattern towards larger column and row indices: moving both by whole
actuators moves the picture by exactly that many columns and rows. -/
theorem C43_probe_translates (nact : ℤ) (dact xc yc clock height ximin ximax etamin etamax phase : ℝ) (p q : ℤ)
    (h : ProbeArgs nact dact height ximin ximax etamin etamax) :
    ∃ o o', probe nact dact xc yc clock height ximin ximax etamin etamax phase = .ok o ∧
      probe nact dact (xc + p) (yc + q) clock height ximin ximax etamin etamax phase = .ok o' ∧
      ∀ i j, 0 ≤ i → i < nact → 0 ≤ j → j < nact → 0 ≤ i + q → i + q < nact → 0 ≤ j + p → j + p < nact →
        o'.px (i + q) (j + p) = o.px i j := by
  refine ⟨_, _, probe_eq _ _ _ _ _ _ _ _ _ _ _ h, probe_eq _ _ _ _ _ _ _ _ _ _ _ h, ?_⟩
  intro i j a b c d e f g k
  rw [Arr2.px_ofFn_in _ (by omega), Arr2.px_ofFn_in _ (by omega)]
  unfold dmAxis
  rw [toNat_real _ a, toNat_real _ c, toNat_real _ e, toNat_real _ g]
  congr 2 <;> (push_cast; ring)

/-- **C43.** A centred probe with phase 0 is odd, and with phase 90 even, about the centre of the mirror. -/
theorem C43_probe_parity (nact : ℤ) (dact clock height ximin ximax etamin etamax : ℝ)
    (h : ProbeArgs nact dact height ximin ximax etamin etamax) :
    ∃ s c, probe nact dact 0 0 clock height ximin ximax etamin etamax 0 = .ok s ∧
      probe nact dact 0 0 clock height ximin ximax etamin etamax 90 = .ok c ∧
      ∀ i j, s.px (nact - 1 - i) (nact - 1 - j) = (s.px i j).map (fun v => -v) ∧
        c.px (nact - 1 - i) (nact - 1 - j) = c.px i j := by
  refine ⟨_, _, probe_eq _ _ _ _ _ _ _ _ _ _ _ h, probe_eq _ _ _ _ _ _ _ _ _ _ _ h, fun i j => ?_⟩
  have hn := h.nact_pos
  have key : ∀ k : ℤ, 0 ≤ k → k < nact → dmAxis nact.toNat (nact - 1 - k).toNat = -dmAxis nact.toNat k.toNat := by
    intro k h0 h1
    unfold dmAxis
    rw [toNat_real _ h0, toNat_real _ (by omega), toNat_real _ hn.le]
    push_cast
    ring
  have e90 : (90 : ℝ) * Real.pi / 180 = Real.pi / 2 := by ring
  by_cases hb : (0 ≤ i ∧ i < nact.toNat) ∧ (0 ≤ j ∧ j < nact.toNat)
  · rw [Arr2.px_ofFn_in _ (by omega), Arr2.px_ofFn_in _ hb, Arr2.px_ofFn_in _ (by omega), Arr2.px_ofFn_in _ hb]
    rw [key i (by omega) (by omega), key j (by omega) (by omega)]
    simp only [Option.map_some, Option.some.injEq, sub_zero]
    generalize dmAxis nact.toNat i.toNat = y
    generalize dmAxis nact.toNat j.toNat = x
    have hX : ∀ a b : ℝ, -x * a - -y * b = -(x * a - y * b) := fun a b => by ring
    have hY : ∀ a b : ℝ, -x * a + -y * b = -(x * a + y * b) := fun a b => by ring
    unfold probeVal
    simp only
    rw [hX, hY, neg_div, neg_div, npSinc_neg, npSinc_neg]
    generalize x * Real.cos (clock * Real.pi / 180) - y * Real.sin (clock * Real.pi / 180) = X
    generalize x * Real.sin (clock * Real.pi / 180) + y * Real.cos (clock * Real.pi / 180) = Y
    rw [show 2 * Real.pi * (-X * ((ximin + ximax) / 2) + -Y * ((etamin + etamax) / 2)) / dact =
      -(2 * Real.pi * (X * ((ximin + ximax) / 2) + Y * ((etamin + etamax) / 2)) / dact) by ring]
    constructor
    · simp only [zero_mul, zero_div, add_zero]
      rw [Real.sin_neg]
      ring
    · rw [e90, Real.sin_add_pi_div_two, Real.sin_add_pi_div_two, Real.cos_neg]
  · rw [Arr2.px_ofFn, Arr2.px_ofFn, Arr2.px_ofFn, Arr2.px_ofFn, if_neg hb, if_neg hb, if_neg (by omega), if_neg (by omega)]
    exact ⟨rfl, rfl⟩

example : ProbeArgs 48 46.3 1e-8 3 10 (-10) 10 := by constructor <;> norm_num
example : 2 * (((10 : ℝ) - 3) * (10 - (-10))) ≤ 46.3 ^ 2 := by norm_num

/-! ### C44 -/

/-- **C44.** Converting heights to volts and back, or volts to heights and back, is the identity for every gain map without
zeros. -/
theorem C44_round_trip (n m : ℕ) (g h : Fin n → Fin m → ℝ) (lam : ℝ) (hl : 0 < lam) (hg : ∀ i j, g i j ≠ 0) :
    (∃ v, dmhToVolts ⟨n, m, g⟩ ⟨n, m, h⟩ lam = .ok v ∧ v.nr = n ∧ v.nc = m ∧
      voltsToDmh ⟨n, m, g⟩ v lam = .ok ⟨n, m, h⟩) ∧
    (∃ d, voltsToDmh ⟨n, m, g⟩ ⟨n, m, h⟩ lam = .ok d ∧ d.nr = n ∧ d.nc = m ∧
      dmhToVolts ⟨n, m, g⟩ d lam = .ok ⟨n, m, h⟩) := by
  have hp := Real.pi_ne_zero
  have hl' := hl.ne'
  unfold dmhToVolts voltsToDmh
  simp only [if_neg (not_le.mpr hl), and_self, dite_true, Except.ok.injEq]
  refine ⟨⟨_, rfl, rfl, rfl, ?_⟩, ⟨_, rfl, rfl, rfl, ?_⟩⟩
  · simp only [and_self, dite_true, Fin.cast_eq_self, Except.ok.injEq]
    congr 1
    funext i j
    have := hg i j
    unfold voltsOf dmhOf
    field_simp
  · simp only [and_self, dite_true, Fin.cast_eq_self, Except.ok.injEq]
    congr 1
    funext i j
    have := hg i j
    unfold voltsOf dmhOf
    field_simp

/-- **C44.** The physical meaning: one wavelength of surface height is `2π` radians, and the gain is height per volt. -/
theorem C44_units (n m : ℕ) (g h : Fin n → Fin m → ℝ) (lam : ℝ) (hl : 0 < lam) (hg : ∀ i j, g i j ≠ 0) :
    ∃ v, dmhToVolts ⟨n, m, g⟩ ⟨n, m, h⟩ lam = .ok v ∧ ∀ (i : Fin n) (j : Fin m) (x : ℝ),
      v.px (i : ℕ) (j : ℕ) = some x → x * g i j / lam = h i j / (2 * Real.pi) := by
  have hp := Real.pi_ne_zero
  have hl' := hl.ne'
  unfold dmhToVolts
  simp only [if_neg (not_le.mpr hl), and_self, dite_true, Except.ok.injEq, Fin.cast_eq_self]
  refine ⟨_, rfl, fun i j x hx => ?_⟩
  have := Arr2.px_val (⟨n, m, fun i j => voltsOf (g i j) (h i j) lam⟩ : Arr2 ℝ) i j
  rw [this] at hx
  rw [← Option.some.inj hx]
  have := hg i j
  show voltsOf (g i j) (h i j) lam * g i j / lam = _
  unfold voltsOf
  field_simp

/-- **C44.** Both conversions obey superposition: converting `a·h₁ + b·h₂` is `a` times the first conversion plus `b` times
the second, for every gain map without zeros (at a zero gain `dmh_to_volts` does not give a number, see C121). -/
theorem C44_superposition (n m : ℕ) (g h₁ h₂ : Fin n → Fin m → ℝ) (a b lam : ℝ) (hl : 0 < lam) (_hg : ∀ i j, g i j ≠ 0) :
    (∃ v₁ v₂ : Fin n → Fin m → ℝ, dmhToVolts ⟨n, m, g⟩ ⟨n, m, h₁⟩ lam = .ok ⟨n, m, v₁⟩ ∧
      dmhToVolts ⟨n, m, g⟩ ⟨n, m, h₂⟩ lam = .ok ⟨n, m, v₂⟩ ∧
      dmhToVolts ⟨n, m, g⟩ ⟨n, m, fun i j => a * h₁ i j + b * h₂ i j⟩ lam =
        .ok ⟨n, m, fun i j => a * v₁ i j + b * v₂ i j⟩) ∧
    (∃ v₁ v₂ : Fin n → Fin m → ℝ, voltsToDmh ⟨n, m, g⟩ ⟨n, m, h₁⟩ lam = .ok ⟨n, m, v₁⟩ ∧
      voltsToDmh ⟨n, m, g⟩ ⟨n, m, h₂⟩ lam = .ok ⟨n, m, v₂⟩ ∧
      voltsToDmh ⟨n, m, g⟩ ⟨n, m, fun i j => a * h₁ i j + b * h₂ i j⟩ lam =
        .ok ⟨n, m, fun i j => a * v₁ i j + b * v₂ i j⟩) := by
  unfold dmhToVolts voltsToDmh
  simp only [if_neg (not_le.mpr hl), and_self, dite_true, Except.ok.injEq, Fin.cast_eq_self]
  refine ⟨⟨_, _, rfl, rfl, ?_⟩, ⟨_, _, rfl, rfl, ?_⟩⟩
  · congr 1
    funext i j
    unfold voltsOf
    ring
  · congr 1
    funext i j
    unfold dmhOf
    ring

/-- **C44.** A non-positive wavelength or a gain map of another shape is a `TypeError` in both directions. -/
theorem C44_rejects (g h : Arr2 ℝ) (lam : ℝ) (hb : lam ≤ 0 ∨ h.nr ≠ g.nr ∨ h.nc ≠ g.nc) :
    dmhToVolts g h lam = .error .typeError ∧ voltsToDmh g h lam = .error .typeError := by
  unfold dmhToVolts voltsToDmh
  by_cases hl : lam ≤ 0
  · rw [if_pos hl, if_pos hl]; exact ⟨rfl, rfl⟩
  · have : ¬ (h.nr = g.nr ∧ h.nc = g.nc) := by tauto
    rw [if_neg hl, if_neg hl, dif_neg this, dif_neg this]
    exact ⟨rfl, rfl⟩

example : ∀ i j : Fin 2, (fun (i j : Fin 2) => (4e-9 : ℝ) + i * 1e-9 + j * 2e-9) i j ≠ 0 := by
  intro i j
  fin_cases i <;> fin_cases j <;> norm_num

/-! ### C68 -/

/-- **C68.** `zernike` puts `zernsize` times Noll's Zernike polynomial on the mirror, with the beam of diameter `dact` centred
on the middle of the actuator grid (between the middle actuators when their number is even). -/
theorem C68_dm_zernike (nact order : ℕ) (dact size : ℝ) (hn : 0 < nact) (hd : 0 < dact) (ho : 0 < order) :
    ∃ o, dmZernike nact dact size order = .ok o ∧ o.nr = nact ∧ o.nc = nact ∧
      ∀ i j : ℕ, i < nact → j < nact → ∀ x y : ℝ, x = j - ((nact : ℝ) - 1) / 2 → y = i - ((nact : ℝ) - 1) / 2 →
        o.px i j = some (size * mode order (dact / 2) x y) := by
  have hx := C22_xyzern nact nact (fun _ j => dmAxis nact j) (fun i _ => dmAxis nact i) (dact / 2) [order]
    (by linarith) (by simp) (by intro j hj; rw [List.mem_singleton] at hj; omega)
  unfold dmZernike
  rw [if_neg (by rintro (h | h | h) <;> first | omega | linarith)]
  simp only [Int.toNat_natCast]
  unfold Arr2.ofFn
  simp only [List.map_cons, List.map_nil] at hx
  rw [hx]
  refine ⟨_, rfl, rfl, rfl, ?_⟩
  intro i j hi hj x y hx' hy'
  rw [Arr2.px_map, Arr2.px_of_inB _ (by simp; omega)]
  subst hx' hy'
  simp only [Option.map_some, Int.toNat_natCast]
  rfl

/-- **C68.** The pattern is proportional to its size, so the rms per unit size does not depend on it, and `zernike` refuses
exactly non-positive sizes, beams and orders, with `TypeError`. -/
theorem C68_dm_zernike_linear (nact order : ℤ) (dact size c : ℝ) :
    (0 < nact ∧ 0 < dact ∧ 0 < order → ∃ o, dmZernike nact dact size order = .ok o ∧
      dmZernike nact dact (c * size) order = .ok (o.map fun v => c * v)) ∧
    (¬ (0 < nact ∧ 0 < dact ∧ 0 < order) → dmZernike nact dact size order = .error .typeError) := by
  constructor
  · rintro ⟨h1, h2, h3⟩
    unfold dmZernike
    rw [if_neg (by rintro (h | h | h) <;> first | omega | linarith), if_neg (by rintro (h | h | h) <;> first | omega | linarith)]
    have hx : ∀ x y : Arr2 ℝ, x.nr = y.nr → x.nc = y.nc → ∃ s, xyzern x y (dact / 2) [order] = .ok [s] := by
      intro x y hr hc
      unfold xyzern
      rw [if_neg (by linarith), dif_pos ⟨hr, hc⟩, if_neg (by simp; omega), if_neg (by simp)]
      exact ⟨_, rfl⟩
    obtain ⟨s, hs⟩ := hx (Arr2.ofFn nact.toNat nact.toNat fun _ j => dmAxis nact.toNat j)
      (Arr2.ofFn nact.toNat nact.toNat fun i _ => dmAxis nact.toNat i) rfl rfl
    simp only [hs]
    refine ⟨_, rfl, ?_⟩
    show Except.ok _ = Except.ok _
    congr 1
    unfold Arr2.map
    simp only [mul_assoc]
  · intro h
    unfold dmZernike
    rw [if_pos]
    by_contra hc
    push Not at hc
    exact h ⟨hc.1, hc.2.1, hc.2.2⟩

example : 0 < 48 ∧ (0 : ℝ) < 46.3 ∧ 0 < 11 := by norm_num

end Coralign.Props
