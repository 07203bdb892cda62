import Verif.Spec.DmReg
import Verif.Props.OccAstro
import Verif.Props.Dmhtoph
import Verif.Props.DrUtil

/-!
# C57, C74, C75: DM registration
-/

namespace Coralign.Props

open Coralign Coralign.Spec

/-- The spacing of `np.linspace(-m, m, n)`. -/
noncomputable def spacing (m : ℝ) (n : ℤ) : ℝ := 2 * m / (n - 1)

theorem linspace_trials (m : ℝ) (n : ℤ) (hn : 2 ≤ n) (c : ℝ) :
    (linspaceList (-m) m n.toNat).map (fun z : ℝ => c * z) = trials n.toNat (c * spacing m n) 0 := by
  obtain ⟨n, rfl⟩ := Int.eq_ofNat_of_zero_le (show 0 ≤ n by omega)
  have h : ((n : ℝ) - 1) ≠ 0 := by
    have : (2 : ℝ) ≤ n := by exact_mod_cast hn
    linarith
  unfold linspaceList trials linspace spacing
  rw [List.map_map]
  refine List.map_congr_left fun k _ => ?_
  simp only [Function.comp, Int.toNat_natCast, Int.cast_natCast]
  field_simp
  ring

theorem linspace_trials' (m : ℝ) (n : ℤ) (hn : 2 ≤ n) (s : ℝ) :
    linspaceList (-m) m n.toNat = trials n.toNat (s ^ 0 * spacing m n) 0 := by
  rw [pow_zero, ← linspace_trials m n hn 1]
  simp

theorem spacing_ne (m : ℝ) (n : ℤ) (hn : 2 ≤ n) (hm : m ≠ 0) : spacing m n ≠ 0 := by
  unfold spacing
  have : ((n : ℝ) - 1) ≠ 0 := by
    have : (2 : ℝ) ≤ n := by exact_mod_cast hn
    linarith
  exact div_ne_zero (by simpa using hm) this

/-! ### Translation -/

/-- One fit finds the centre. -/
theorem offset_fit (S : Solver) (F : ℝ → ℝ → ℝ) (n : ℕ) (hn : 3 ≤ n) (st : ℝ) (hs : st ≠ 0) (e : ℝ × ℝ) (x0 y0 : ℝ)
    (h : Paraboloid F (trials n st e.1) (trials n st e.2) x0 y0) :
    gridFit S (trials n st 0) (trials n st 0) ⟨(trials n st 0).length, (trials n st 0).length, fun i j =>
      F (e.1 + (trials n st 0).get j) (e.2 + (trials n st 0).get i)⟩ = .ok (x0 - e.1, y0 - e.2) := by
  refine gridFit_paraboloid S (trials n st 0) (trials n st 0) (fun x y => F (e.1 + x) (e.2 + y)) _ _ (trials_three n hn st 0 hs)
    (trials_three n hn st 0 hs) ?_
  refine Paraboloid.shift e.1 e.2 ?_
  rw [trials_shift, trials_shift, add_zero, add_zero]
  exact h

theorem offsetLoop_fit (S : Solver) (cost : ℝ → ℝ → Res ℝ) (F : ℝ → ℝ → ℝ) (hF : ∀ x y, cost x y = .ok (F x y)) (t : ClockTuning)
    (hn : 3 ≤ t.nOffset) (hm : t.offsetMax ≠ 0) (hs : t.shrinkFac ≠ 0) (x0 y0 : ℝ) (N : ℕ)
    (h0 : ∀ i < N, Paraboloid F (trials t.nOffset.toNat (t.shrinkFac ^ i * spacing t.offsetMax t.nOffset) x0)
      (trials t.nOffset.toNat (t.shrinkFac ^ i * spacing t.offsetMax t.nOffset) y0) x0 y0)
    (left iter j : ℕ) (hj : j < N) (hN : iter + left + 1 ≤ N) (hit : ¬ (iter = 0 ∧ t.nIterOffset > 1)) (e : ℝ × ℝ)
    (he : Paraboloid F (trials t.nOffset.toNat (t.shrinkFac ^ j * spacing t.offsetMax t.nOffset) e.1)
      (trials t.nOffset.toNat (t.shrinkFac ^ j * spacing t.offsetMax t.nOffset) e.2) x0 y0) :
    offsetLoop S cost t (left + 1) iter
      (trials t.nOffset.toNat (t.shrinkFac ^ j * spacing t.offsetMax t.nOffset) 0,
       trials t.nOffset.toNat (t.shrinkFac ^ j * spacing t.offsetMax t.nOffset) 0) e =
    .ok ((trials t.nOffset.toNat (t.shrinkFac ^ (iter + left) * spacing t.offsetMax t.nOffset) 0,
      trials t.nOffset.toNat (t.shrinkFac ^ (iter + left) * spacing t.offsetMax t.nOffset) 0), (x0, y0)) := by
  induction left generalizing iter j e with
  | zero =>
    unfold offsetLoop offsetLoop
    simp only
    rw [costGrid_ok _ _ _ (fun x y => F (e.1 + x) (e.2 + y)) (fun x _ y _ => hF _ _), res_ok_bind, if_neg hit,
      offset_fit S F _ (by omega) _ (mul_ne_zero (pow_ne_zero _ hs) (spacing_ne _ _ (by omega) hm)) e x0 y0 he, res_ok_bind,
      linspace_trials _ _ (by omega), add_sub_cancel, add_sub_cancel, Nat.add_zero]
  | succ left ih =>
    rw [offsetLoop]
    simp only
    rw [costGrid_ok _ _ _ (fun x y => F (e.1 + x) (e.2 + y)) (fun x _ y _ => hF _ _), res_ok_bind, if_neg hit,
      offset_fit S F _ (by omega) _ (mul_ne_zero (pow_ne_zero _ hs) (spacing_ne _ _ (by omega) hm)) e x0 y0 he, res_ok_bind,
      linspace_trials _ _ (by omega), add_sub_cancel, add_sub_cancel]
    rw [ih (iter + 1) iter (by omega) (by omega) (by omega) (x0, y0) (h0 iter (by omega)), show iter + 1 + left = iter + (left + 1) by omega]

theorem offsetLoop_exact (S : Solver) (cost : ℝ → ℝ → Res ℝ) (F : ℝ → ℝ → ℝ) (hF : ∀ x y, cost x y = .ok (F x y)) (t : ClockTuning)
    (hn : 3 ≤ t.nOffset) (hi : 0 < t.nIterOffset) (hm : t.offsetMax ≠ 0) (hs : t.shrinkFac ≠ 0) (x0 y0 : ℝ) (start e : ℝ × ℝ)
    (h : QuadraticSearch F t.nOffset.toNat t.shrinkFac (spacing t.offsetMax t.nOffset) t.nIterOffset.toNat start x0 y0)
    (he : e = start ∨ e = (x0, y0)) (j : ℕ) (hj : j < t.nIterOffset.toNat) :
    ∃ k < t.nIterOffset.toNat, offsetLoop S cost t t.nIterOffset.toNat 0
      (trials t.nOffset.toNat (t.shrinkFac ^ j * spacing t.offsetMax t.nOffset) 0,
       trials t.nOffset.toNat (t.shrinkFac ^ j * spacing t.offsetMax t.nOffset) 0) e =
    .ok ((trials t.nOffset.toNat (t.shrinkFac ^ k * spacing t.offsetMax t.nOffset) 0,
      trials t.nOffset.toNat (t.shrinkFac ^ k * spacing t.offsetMax t.nOffset) 0), (x0, y0)) := by
  have h0 : ∀ i < t.nIterOffset.toNat, Paraboloid F (trials t.nOffset.toNat (t.shrinkFac ^ i * spacing t.offsetMax t.nOffset) x0)
      (trials t.nOffset.toNat (t.shrinkFac ^ i * spacing t.offsetMax t.nOffset) y0) x0 y0 :=
    fun i hi => h (x0, y0) (Or.inr rfl) x0 y0 (Or.inl rfl) i hi
  by_cases h1 : t.nIterOffset > 1
  · obtain ⟨m, hN⟩ : ∃ m, t.nIterOffset.toNat = m + 2 := ⟨t.nIterOffset.toNat - 2, by omega⟩
    refine ⟨m + 1, by omega, ?_⟩
    rw [hN, offsetLoop]
    simp only
    rw [costGrid_ok _ _ _ (fun x y => F (e.1 + x) (e.2 + y)) (fun x _ y _ => hF _ _), res_ok_bind, if_pos ⟨trivial, h1⟩, res_ok_bind,
      linspace_trials _ _ (by omega)]
    have hne := trials_ne_nil t.nOffset.toNat (by omega) (t.shrinkFac ^ j * spacing t.offsetMax t.nOffset) 0
    obtain ⟨g1, g2, -⟩ := gridArgmin_spec (trials t.nOffset.toNat (t.shrinkFac ^ j * spacing t.offsetMax t.nOffset) 0)
      (trials t.nOffset.toNat (t.shrinkFac ^ j * spacing t.offsetMax t.nOffset) 0) (fun x y => F (e.1 + x) (e.2 + y)) hne hne
    generalize gridArgmin (trials t.nOffset.toNat (t.shrinkFac ^ j * spacing t.offsetMax t.nOffset) 0)
      (trials t.nOffset.toNat (t.shrinkFac ^ j * spacing t.offsetMax t.nOffset) 0) _ = g at g1 g2 ⊢
    have m1 : e.1 + g.1 ∈ trials t.nOffset.toNat (t.shrinkFac ^ j * spacing t.offsetMax t.nOffset) e.1 := by
      have := trials_shift t.nOffset.toNat (t.shrinkFac ^ j * spacing t.offsetMax t.nOffset) 0 e.1
      rw [add_zero] at this
      rw [← this]
      exact List.mem_map_of_mem g1
    have m2 : e.2 + g.2 ∈ trials t.nOffset.toNat (t.shrinkFac ^ j * spacing t.offsetMax t.nOffset) e.2 := by
      have := trials_shift t.nOffset.toNat (t.shrinkFac ^ j * spacing t.offsetMax t.nOffset) 0 e.2
      rw [add_zero] at this
      rw [← this]
      exact List.mem_map_of_mem g2
    rw [offsetLoop_fit S cost F hF t hn hm hs x0 y0 t.nIterOffset.toNat h0 m (0 + 1) 0 (by omega) (by omega) (by omega) _
      (h e he _ _ (Or.inr ⟨by omega, j, hj, m1, m2⟩) 0 (by omega)), show 0 + 1 + m = m + 1 by omega]
  · have hN : t.nIterOffset.toNat = 0 + 1 := by omega
    refine ⟨0, by omega, ?_⟩
    rw [hN, offsetLoop_fit S cost F hF t hn hm hs x0 y0 t.nIterOffset.toNat h0 0 0 j hj (by omega) (by omega) e
      (h e he e.1 e.2 (Or.inl rfl) j hj)]

/-! ### Clocking -/

/-- `np.argmin` picks a trial value at which the function is smallest. -/
theorem lineArgmin_spec (F : ℝ → ℝ) (l : List ℝ) (hl : l ≠ []) :
    lineArgmin l (l.map F) ∈ l ∧ ∀ s ∈ l, F (lineArgmin l (l.map F)) ≤ F s := by
  unfold lineArgmin
  obtain ⟨h1, h2, -⟩ := argmaxUpto_spec (fun k => -(l.map F).getD k 0) ((l.map F).length - 1)
  generalize argmaxUpto (fun k => -(l.map F).getD k 0) ((l.map F).length - 1) = b at h1 h2 ⊢
  rw [List.length_map] at h1 h2
  have hpos := List.length_pos_iff.mpr hl
  have hb : b < l.length := by omega
  have get : ∀ k (hk : k < l.length), (l.map F).getD k 0 = F l[k] := by
    intro k hk
    rw [List.getD_eq_getElem _ _ (by simpa using hk), List.getElem_map]
  rw [List.getD_eq_getElem _ _ hb]
  refine ⟨List.getElem_mem hb, fun s hs => ?_⟩
  obtain ⟨k, hk, rfl⟩ := List.mem_iff_getElem.mp hs
  have := h2 k (by omega)
  rw [get k hk, get b hb] at this
  exact neg_le_neg_iff.mp this

/-- One fit of the clocking loop overshoots by the factor `1/s^k`. -/
theorem clock_fit (S : Solver) (G : ℝ → ℝ) (n : ℕ) (hn : 3 ≤ n) (st : ℝ) (hst : st ≠ 0) (m : ℝ) (hm : m ≠ 0) (e th0 : ℝ)
    (h : ScaledParabola G (trials n (m * st) e) m th0) :
    findOptimum1d S (trials n st 0) ((trials n st 0).map fun v : ℝ => G (m * v + e)) = .ok ((th0 - e) / m) := by
  obtain ⟨a, f, ha, hG⟩ := h
  refine lineFit_parabola S (fun v => G (m * v + e)) _ _ (trials_three n hn st 0 hst) ⟨a * m ^ 2, f, ?_, fun v hv => ?_⟩
  · rw [abs_mul, abs_pow, sq_abs]; exact ha
  · have hmem : m * v + e ∈ trials n (m * st) e := by
      obtain ⟨k, hk, rfl⟩ := List.mem_map.mp hv
      refine List.mem_map.mpr ⟨k, hk, ?_⟩
      ring
    simp only
    rw [hG _ hmem]
    field_simp
    ring

theorem clockLoop_drift (S : Solver) (cost : ℝ → Res ℝ) (G : ℝ → ℝ) (hG : ∀ x, cost x = .ok (G x)) (t : ClockTuning)
    (hn : 3 ≤ t.nClock) (hm : t.clockMaxDeg ≠ 0) (hs : t.shrinkFac ≠ 0) (th0 th1 : ℝ) (left k : ℕ)
    (h : ∀ i, i < left → ScaledParabola G
      (trials t.nClock.toNat (t.shrinkFac ^ (k + i + 1) * spacing t.clockMaxDeg t.nClock) (th0 + (th1 - th0) * driftFactor t.shrinkFac (k + i)))
      (t.shrinkFac ^ (k + i + 1)) th0) :
    clockLoop S cost t left (k + 1) (th0 + (th1 - th0) * driftFactor t.shrinkFac k) =
      .ok (th0 + (th1 - th0) * driftFactor t.shrinkFac (k + left)) := by
  induction left generalizing k with
  | zero => rfl
  | succ left ih =>
    rw [clockLoop]
    simp only [List.mapM_map, Function.comp_def]
    have hp := h 0 (by omega)
    simp only [Nat.add_zero] at hp
    have hv := linspace_trials' t.clockMaxDeg t.nClock (by omega) t.shrinkFac
    rw [pow_zero, one_mul] at hv
    rw [hv]
    rw [mapM_ok _ (fun v : ℝ => G (t.shrinkFac ^ (k + 1) * v + (th0 + (th1 - th0) * driftFactor t.shrinkFac k))) _ (fun v _ => hG _),
      res_ok_bind, if_neg (by omega),
      clock_fit S G _ (by omega) _ (spacing_ne _ _ (by omega) hm) _ (pow_ne_zero _ hs) _ th0 hp, res_ok_bind]
    have e : th0 + (th1 - th0) * driftFactor t.shrinkFac k + (th0 - (th0 + (th1 - th0) * driftFactor t.shrinkFac k)) / t.shrinkFac ^ (k + 1) =
        th0 + (th1 - th0) * driftFactor t.shrinkFac (k + 1) := by
      have : driftFactor t.shrinkFac (k + 1) = driftFactor t.shrinkFac k * (1 - (t.shrinkFac ^ (k + 1))⁻¹) := by
        unfold driftFactor
        rw [Finset.prod_range_succ]
      rw [this]
      field_simp
      ring
    rw [e, ih (k + 1) (fun i hi => by
      have := h (i + 1) (by omega)
      rwa [show k + (i + 1) = k + 1 + i by omega] at this), show k + 1 + left = k + (left + 1) by omega]

/-- The whole clocking loop: the best trial angle, then the drift. -/
theorem clockLoop_many (S : Solver) (cost : ℝ → Res ℝ) (G : ℝ → ℝ) (hG : ∀ x, cost x = .ok (G x)) (t : ClockTuning)
    (hn : 3 ≤ t.nClock) (hm : t.clockMaxDeg ≠ 0) (hs : t.shrinkFac ≠ 0) (hi : 1 < t.nIterClock) (th0 th : ℝ)
    (h : ∀ th1 ∈ trials t.nClock.toNat (spacing t.clockMaxDeg t.nClock) th, ∀ i : ℕ, i + 1 < t.nIterClock → ScaledParabola G
      (trials t.nClock.toNat (t.shrinkFac ^ (i + 1) * spacing t.clockMaxDeg t.nClock) (th0 + (th1 - th0) * driftFactor t.shrinkFac i))
      (t.shrinkFac ^ (i + 1)) th0) :
    ∃ th1 ∈ trials t.nClock.toNat (spacing t.clockMaxDeg t.nClock) th,
      (∀ x ∈ trials t.nClock.toNat (spacing t.clockMaxDeg t.nClock) th, G th1 ≤ G x) ∧
      clockLoop S cost t t.nIterClock.toNat 0 th = .ok (th0 + (th1 - th0) * driftFactor t.shrinkFac (t.nIterClock.toNat - 1)) := by
  have hv := linspace_trials' t.clockMaxDeg t.nClock (by omega) t.shrinkFac
  rw [pow_zero, one_mul] at hv
  have hsh := trials_shift t.nClock.toNat (spacing t.clockMaxDeg t.nClock) 0 th
  rw [add_zero] at hsh
  have hne := trials_ne_nil t.nClock.toNat (by omega) (spacing t.clockMaxDeg t.nClock) 0
  obtain ⟨g1, g2⟩ := lineArgmin_spec (fun v => G (t.shrinkFac ^ 0 * v + th)) (trials t.nClock.toNat (spacing t.clockMaxDeg t.nClock) 0) hne
  set d := lineArgmin (trials t.nClock.toNat (spacing t.clockMaxDeg t.nClock) 0) _ with hd
  have hmem : th + d ∈ trials t.nClock.toNat (spacing t.clockMaxDeg t.nClock) th := by
    rw [← hsh]
    exact List.mem_map_of_mem g1
  refine ⟨th + d, hmem, fun x hx => ?_, ?_⟩
  · rw [← hsh] at hx
    obtain ⟨v, hv, rfl⟩ := List.mem_map.mp hx
    have := g2 v hv
    simp only [pow_zero, one_mul] at this
    rwa [add_comm th d, add_comm th v]
  · obtain ⟨m, hN⟩ : ∃ m, t.nIterClock.toNat = m + 2 := ⟨t.nIterClock.toNat - 2, by omega⟩
    rw [hN, clockLoop]
    simp only [List.mapM_map, Function.comp_def]
    rw [hv, mapM_ok _ (fun v : ℝ => G (t.shrinkFac ^ 0 * v + th)) _ (fun v _ => hG _), res_ok_bind, if_pos ⟨trivial, hi⟩, res_ok_bind]
    have := clockLoop_drift S cost G hG t hn hm hs th0 (th + d) (m + 1) 0 (fun i hi => by
      rw [Nat.zero_add]
      exact h (th + d) hmem i (by omega))
    rw [show driftFactor t.shrinkFac 0 = 1 from Finset.prod_range_zero _, mul_one, add_sub_cancel, Nat.zero_add, Nat.zero_add] at this
    exact this

theorem clockLoop_once (S : Solver) (cost : ℝ → Res ℝ) (G : ℝ → ℝ) (hG : ∀ x, cost x = .ok (G x)) (t : ClockTuning)
    (hn : 3 ≤ t.nClock) (hm : t.clockMaxDeg ≠ 0) (hi : t.nIterClock = 1) (th0 th : ℝ)
    (h : Parabola G (trials t.nClock.toNat (spacing t.clockMaxDeg t.nClock) th) th0) :
    clockLoop S cost t t.nIterClock.toNat 0 th = .ok th0 := by
  have hv := linspace_trials' t.clockMaxDeg t.nClock (by omega) t.shrinkFac
  rw [pow_zero, one_mul] at hv
  rw [hi, show (1 : ℤ).toNat = 0 + 1 from rfl]
  unfold clockLoop clockLoop
  simp only [List.mapM_map, Function.comp_def]
  obtain ⟨a, f, ha, hf⟩ := h
  rw [hv, mapM_ok _ (fun v : ℝ => G (t.shrinkFac ^ 0 * v + th)) _ (fun v _ => hG _), res_ok_bind, if_neg (by omega)]
  simp only [pow_zero]
  rw [clock_fit S G _ (by omega) _ (spacing_ne _ _ (by omega) hm) 1 one_ne_zero th th0 ⟨a, f, by simpa using ha, by rw [one_mul]; exact hf⟩,
    res_ok_bind, div_one, add_sub_cancel]

theorem clockLoop_exact (S : Solver) (cost : ℝ → Res ℝ) (G : ℝ → ℝ) (hG : ∀ x, cost x = .ok (G x)) (t : ClockTuning)
    (hn : 3 ≤ t.nClock) (hm : t.clockMaxDeg ≠ 0) (hi : 0 < t.nIterClock) (hex : t.nIterClock = 1 ∨ t.shrinkFac = 1) (th0 th : ℝ)
    (h : ∀ p, p = th ∨ p = th0 → ∀ c, c = p ∨ c ∈ trials t.nClock.toNat (spacing t.clockMaxDeg t.nClock) p →
      Parabola G (trials t.nClock.toNat (spacing t.clockMaxDeg t.nClock) c) th0) :
    clockLoop S cost t t.nIterClock.toNat 0 th = .ok th0 := by
  by_cases h1 : t.nIterClock = 1
  · exact clockLoop_once S cost G hG t hn hm h1 th0 th (h th (Or.inl rfl) th (Or.inl rfl))
  have hs := hex.resolve_left h1
  have hz : ∀ k, driftFactor t.shrinkFac (k + 1) = 0 := by
    intro k
    unfold driftFactor
    refine Finset.prod_eq_zero (Finset.mem_range.mpr (Nat.succ_pos k)) ?_
    rw [hs]
    norm_num
  obtain ⟨th1, -, -, e⟩ := clockLoop_many S cost G hG t hn hm (by rw [hs]; norm_num) (by omega) th0 th (fun th1 hth1 i hi => by
    have hpar : Parabola G (trials t.nClock.toNat (spacing t.clockMaxDeg t.nClock) (th0 + (th1 - th0) * driftFactor t.shrinkFac i)) th0 := by
      cases i with
      | zero =>
        rw [show driftFactor t.shrinkFac 0 = 1 from Finset.prod_range_zero _, mul_one, add_sub_cancel]
        exact h th (Or.inl rfl) th1 (Or.inr hth1)
      | succ i =>
        rw [hz, mul_zero, add_zero]
        exact h th0 (Or.inr rfl) th0 (Or.inl rfl)
    obtain ⟨a, f, ha, hf⟩ := hpar
    refine ⟨a, f, ?_, ?_⟩
    · rw [hs]; simpa using ha
    · have : t.shrinkFac ^ (i + 1) * spacing t.clockMaxDeg t.nClock = spacing t.clockMaxDeg t.nClock := by rw [hs, one_pow, one_mul]
      rw [this]
      exact hf)
  obtain ⟨m, hN⟩ : ∃ m, t.nIterClock.toNat - 1 = m + 1 := ⟨t.nIterClock.toNat - 2, by omega⟩
  rw [e, hN, hz, mul_zero, add_zero]

/-! ### The whole search -/

theorem bothLoop_exact (S : Solver) (oCost cCost : ℝ → ℝ → ℝ → Res ℝ) (F G : ℝ → ℝ → ℝ → ℝ) (hF : ∀ th x y, oCost th x y = .ok (F th x y))
    (hG : ∀ x y th, cCost x y th = .ok (G x y th)) (t : ClockTuning)
    (hn : 3 ≤ t.nOffset) (hi : 0 < t.nIterOffset) (hm : t.offsetMax ≠ 0) (hs : t.shrinkFac ≠ 0)
    (hn' : 3 ≤ t.nClock) (hm' : t.clockMaxDeg ≠ 0) (hi' : 0 < t.nIterClock) (hex : t.nIterClock = 1 ∨ t.shrinkFac = 1)
    (x0 y0 th0 : ℝ) (start : ℝ × ℝ) (thact : ℝ)
    (hQ : ∀ th, th = thact ∨ th = th0 →
      QuadraticSearch (F th) t.nOffset.toNat t.shrinkFac (spacing t.offsetMax t.nOffset) t.nIterOffset.toNat start x0 y0)
    (hP : ∀ p, p = thact ∨ p = th0 → ∀ c, c = p ∨ c ∈ trials t.nClock.toNat (spacing t.clockMaxDeg t.nClock) p →
      Parabola (G x0 y0) (trials t.nClock.toNat (spacing t.clockMaxDeg t.nClock) c) th0)
    (left : ℕ) (j : ℕ) (hj : j < t.nIterOffset.toNat) (e : ℝ × ℝ) (he : e = start ∨ e = (x0, y0)) (th : ℝ) (hth : th = thact ∨ th = th0) :
    bothLoop S oCost cCost t (left + 1)
      (trials t.nOffset.toNat (t.shrinkFac ^ j * spacing t.offsetMax t.nOffset) 0,
       trials t.nOffset.toNat (t.shrinkFac ^ j * spacing t.offsetMax t.nOffset) 0) e th = .ok (x0, y0, th0) := by
  have step : ∀ (j : ℕ) (_ : j < t.nIterOffset.toNat) (e : ℝ × ℝ) (_ : e = start ∨ e = (x0, y0)) (th : ℝ) (_ : th = thact ∨ th = th0)
      (left : ℕ), ∃ k < t.nIterOffset.toNat, bothLoop S oCost cCost t (left + 1)
      (trials t.nOffset.toNat (t.shrinkFac ^ j * spacing t.offsetMax t.nOffset) 0,
       trials t.nOffset.toNat (t.shrinkFac ^ j * spacing t.offsetMax t.nOffset) 0) e th =
      bothLoop S oCost cCost t left (trials t.nOffset.toNat (t.shrinkFac ^ k * spacing t.offsetMax t.nOffset) 0,
       trials t.nOffset.toNat (t.shrinkFac ^ k * spacing t.offsetMax t.nOffset) 0) (x0, y0) th0 := by
    intro j hj e he th hth left
    obtain ⟨k, hk, ek⟩ := offsetLoop_exact S (oCost th) (F th) (hF th) t hn hi hm hs x0 y0 start e (hQ th hth) he j hj
    refine ⟨k, hk, ?_⟩
    rw [bothLoop, ek, res_ok_bind]
    simp only
    rw [clockLoop_exact S (cCost x0 y0) (G x0 y0) (hG x0 y0) t hn' hm' hi' hex th0 th (fun p hp c hc => hP p (by
      rcases hp with rfl | rfl
      · exact hth
      · exact Or.inr rfl) c hc), res_ok_bind]
  induction left generalizing j e th with
  | zero =>
    obtain ⟨k, -, e⟩ := step j hj e he th hth 0
    rw [e]
    rfl
  | succ left ih =>
    obtain ⟨k, hk, e⟩ := step j hj e he th hth (left + 1)
    rw [e]
    exact ih k hk (x0, y0) (Or.inr rfl) th0 (Or.inr rfl)

/-- The inputs `calc_translation_clocking` accepts. -/
structure ClockArgs (d : PhaseData) (whichDM : ℤ) (deltaV : Arr2 ℝ) (t : ClockTuning) (lam : ℝ) : Prop where
  shapes : (d.ph0.nr = d.amp0.nr ∧ d.ph0.nc = d.amp0.nc) ∧ (d.amp1.nr = d.amp0.nr ∧ d.amp1.nc = d.amp0.nc) ∧
    (d.ph1.nr = d.amp0.nr ∧ d.ph1.nc = d.amp0.nc) ∧ (d.usable.nr = d.amp0.nr ∧ d.usable.nc = d.amp0.nc)
  which : whichDM = 1 ∨ whichDM = 2
  square : deltaV.nr = deltaV.nc
  lam : 0 < lam
  nIterBoth : 0 < t.nIterBoth
  nOffset : 0 < t.nOffset
  nIterOffset : 0 < t.nIterOffset
  shrink : 0 < t.shrinkFac ∧ t.shrinkFac ≤ 1
  nClock : 0 < t.nClock
  nIterClock : 0 < t.nIterClock

theorem misfit_eq (usable : Arr2 Bool) (a b : Arr2 ℝ) : misfit usable a b = totalMisfit usable a b := by
  unfold misfit totalMisfit
  rw [Fintype.sum_prod_type]

theorem wrapPhase_turns (v : ℝ) (k : ℤ) (h1 : -Real.pi < v) (h2 : v ≤ Real.pi) : wrapPhase (v + 2 * Real.pi * k) = v := by
  unfold wrapPhase
  have e : Complex.exp (Complex.I * ((v + 2 * Real.pi * k : ℝ) : ℂ)) = Complex.exp (v * Complex.I) := by
    rw [Complex.exp_eq_exp_iff_exists_int]
    refine ⟨k, ?_⟩
    push_cast
    ring
  rw [e, Complex.exp_mul_I]
  exact Complex.arg_cos_add_sin_mul_I ⟨h1, h2⟩

theorem wrapPhase_turn (v : ℝ) : ∃ k : ℤ, v = wrapPhase v + 2 * Real.pi * k := by
  have h := Complex.exp_eq_exp_iff_exists_int.mp (show Complex.exp (v * Complex.I) = Complex.exp ((wrapPhase v : ℝ) * Complex.I) by
    unfold wrapPhase
    have := Complex.norm_mul_exp_arg_mul_I (Complex.exp (Complex.I * v))
    rw [mul_comm Complex.I, Complex.norm_exp_ofReal_mul_I, Complex.ofReal_one, one_mul] at this
    rw [mul_comm Complex.I]
    exact this.symm)
  obtain ⟨k, hk⟩ := h
  refine ⟨k, ?_⟩
  have := congrArg Complex.im hk
  simp at this
  linarith

/-- The measured change of phase is what the code computes. -/
theorem isMeasured_iff (S : Solver) (d : PhaseData) (meas : Arr2 ℝ) (hr : d.ph1.nr = d.usable.nr) (hc : d.ph1.nc = d.usable.nc) :
    IsMeasured S d meas ↔ measuredDiff S d = .ok meas := by
  unfold IsMeasured measuredDiff
  have hpx : ∀ i j, (0 ≤ i ∧ i < (d.ph1.nr : ℤ)) ∧ (0 ≤ j ∧ j < (d.ph1.nc : ℤ)) →
      ((d.ph1.subPx d.ph0).map wrapPhase).px i j = some (wrapPhase (d.ph1.zext i j - d.ph0.zext i j)) := by
    intro i j h
    rw [Arr2.px_of_inB ((d.ph1.subPx d.ph0).map wrapPhase) h]
    have z : d.ph1.zext i j = d.ph1.val ⟨i.toNat, by omega⟩ ⟨j.toNat, by omega⟩ := by
      unfold Arr2.zext
      rw [Arr2.px_of_inB d.ph1 h, Option.getD_some]
    rw [z]
    have hi : ((i.toNat : ℕ) : ℤ) = i := Int.toNat_of_nonneg h.1.1
    have hj : ((j.toNat : ℕ) : ℤ) = j := Int.toNat_of_nonneg h.2.1
    show some (wrapPhase (d.ph1.val _ _ - (d.ph0.px ((i.toNat : ℕ) : ℤ) ((j.toNat : ℕ) : ℤ)).getD 0)) = _
    rw [hi, hj]
    rfl
  have key : ∀ i j v, ((d.ph1.subPx d.ph0).map wrapPhase).px i j = some v →
      (-Real.pi < v ∧ v ≤ Real.pi) ∧ ∃ k : ℤ, d.ph1.zext i j - d.ph0.zext i j = v + 2 * Real.pi * k := by
    intro i j v h
    have hin : (0 ≤ i ∧ i < (d.ph1.nr : ℤ)) ∧ (0 ≤ j ∧ j < (d.ph1.nc : ℤ)) := by
      by_contra hn
      rw [Arr2.px_of_not_inB ((d.ph1.subPx d.ph0).map wrapPhase) hn] at h
      cases h
    rw [hpx i j hin] at h
    obtain rfl := Option.some.inj h
    obtain ⟨k, hk⟩ := wrapPhase_turn (d.ph1.zext i j - d.ph0.zext i j)
    exact ⟨⟨Complex.neg_pi_lt_arg _, Complex.arg_le_pi _⟩, k, hk⟩
  constructor
  · rintro ⟨diff, e1, e2, hv, h⟩
    have : (d.ph1.subPx d.ph0).map wrapPhase = diff := by
      refine Arr2.ext_px (hr.trans e1.symm) (hc.trans e2.symm) fun i j h1 h2 h3 h4 => ?_
      have hin : (0 ≤ i ∧ i < (d.ph1.nr : ℤ)) ∧ (0 ≤ j ∧ j < (d.ph1.nc : ℤ)) := ⟨⟨h1, h2⟩, h3, h4⟩
      have hin' : (0 ≤ i ∧ i < (diff.nr : ℤ)) ∧ (0 ≤ j ∧ j < (diff.nc : ℤ)) := by rw [e1, e2, ← hr, ← hc]; exact hin
      rw [hpx i j hin, Arr2.px_of_inB diff hin']
      obtain ⟨⟨b1, b2⟩, k, hk⟩ := hv i j _ (Arr2.px_of_inB diff hin')
      rw [hk, wrapPhase_turns _ k b1 b2]
    rw [this, h]
  · intro h
    exact ⟨(d.ph1.subPx d.ph0).map wrapPhase, hr, hc, key, h⟩

theorem measured_ok (S : Solver) (d : PhaseData) (h : (d.ph1.nr = d.amp0.nr ∧ d.ph1.nc = d.amp0.nc) ∧ (d.usable.nr = d.amp0.nr ∧ d.usable.nc = d.amp0.nc)) :
    ∃ meas, measuredDiff S d = .ok meas := by
  refine ⟨_, ptt_ok S _ _ ?_ ?_⟩
  · exact h.1.1.trans h.2.1.symm
  · exact h.1.2.trans h.2.2.symm

/-- The function reduces to its loop. -/
theorem clocking_eq (Sp : Spline) (R : Rotate) (T : Shift) (S : Solver) (d : PhaseData) (whichDM : ℤ) (deltaV : Arr2 ℝ) (xP yP : ℝ)
    (dm1 dm2 : DmReg) (t : ClockTuning) (lam : ℝ) (h : ClockArgs d whichDM deltaV t lam) (c : DmReg) (hc : c = if whichDM = 1 then dm1 else dm2)
    (dmrad meas : Arr2 ℝ) (hv : voltsToDmh c.gain deltaV lam = .ok dmrad) (hm : measuredDiff S d = .ok meas) :
    calcTranslationClocking Sp R T S d whichDM deltaV xP yP dm1 dm2 t lam =
      bothLoop S (offsetCost Sp R T S d.usable meas dmrad c) (clockCost Sp R T d.usable meas dmrad c) t t.nIterBoth.toNat
        (linspaceList (-t.offsetMax) t.offsetMax t.nOffset.toNat, linspaceList (-t.offsetMax) t.offsetMax t.nOffset.toNat) (xP, yP) c.thact := by
  obtain ⟨⟨a1, a2⟩, ⟨b1, b2⟩, ⟨c1, c2⟩, ⟨d1, d2⟩⟩ := h.shapes
  have := h.nIterBoth; have := h.nOffset; have := h.nIterOffset; have := h.shrink; have := h.nClock; have := h.nIterClock
  unfold calcTranslationClocking
  rw [if_neg (by
    unfold PhaseData.shapesDiffer
    push Not
    exact ⟨⟨a1.symm, a2.symm⟩, ⟨b1.symm, b2.symm⟩, ⟨c1.symm, c2.symm⟩, d1.symm, d2.symm⟩), if_neg (not_not.mpr h.which), if_neg (not_not.mpr h.square), if_neg (not_le.mpr h.lam),
    if_neg (by rintro (h | h | h | h | h | h | h) <;> first | omega | linarith)]
  simp only [← hc]
  rw [hv, res_ok_bind, hm, res_ok_bind]

theorem offsetCost_eq {Sp : Spline} {R : Rotate} {T : Shift} {S : Solver} {usable : Arr2 Bool} {meas dmrad : Arr2 ℝ} {c : DmReg}
    {F : ℝ → ℝ → ℝ → ℝ} (h : IsOffsetMisfit Sp R T S usable meas dmrad c F) (th x y : ℝ) :
    offsetCost Sp R T S usable meas dmrad c th x y = .ok (F th x y) := by
  obtain ⟨surf, sim, h1, h2, h3⟩ := h th x y
  unfold offsetCost
  rw [h1, res_ok_bind, h2, res_ok_bind, h3, misfit_eq]

theorem clockCost_eq {Sp : Spline} {R : Rotate} {T : Shift} {usable : Arr2 Bool} {meas dmrad : Arr2 ℝ} {c : DmReg}
    {G : ℝ → ℝ → ℝ → ℝ} (h : IsClockMisfit Sp R T usable meas dmrad c G) (x y th : ℝ) :
    clockCost Sp R T usable meas dmrad c x y th = .ok (G x y th) := by
  obtain ⟨surf, h1, h3⟩ := h x y th
  unfold clockCost
  rw [h1, res_ok_bind, h3, misfit_eq]

/-- Every DM description accepted by `dmhtoph` gives misfits. -/
theorem misfits_exist (Sp : Spline) (R : Rotate) (T : Shift) (S : Solver) (usable : Arr2 Bool) (meas dmrad : Arr2 ℝ) (c : DmReg)
    (h : DmhArgs usable.nr usable.nc dmrad c.nact c.inf c.ppactD c.cx c.cy) :
    (∃ F, IsOffsetMisfit Sp R T S usable meas dmrad c F) ∧ ∃ G, IsClockMisfit Sp R T usable meas dmrad c G := by
  have key := fun x y th => (C62_shape Sp R T usable.nr usable.nc dmrad c.nact c.inf c.ppactD c.cx c.cy x y th c.flipx).1.mpr h
  have shp := fun x y th => (C62_shape Sp R T usable.nr usable.nc dmrad c.nact c.inf c.ppactD c.cx c.cy x y th c.flipx).2
  choose f hf using key
  have hp : ∀ th x y, ∃ sim, removePistonTipTilt S ((f x y th).map fun v : ℝ => v * 2) usable = .ok sim := by
    intro th x y
    obtain ⟨h1, h2⟩ := shp x y th _ (hf x y th)
    exact ⟨_, ptt_ok S _ _ (by exact_mod_cast h1) (by exact_mod_cast h2)⟩
  choose g hg using hp
  exact ⟨⟨_, fun th x y => ⟨_, _, hf x y th, hg th x y, rfl⟩⟩, ⟨_, fun x y th => ⟨_, hf x y th, rfl⟩⟩⟩

/-- **C57** (partial).  If, at the registrations the search tries, the translation misfit is a paraboloid centred on `(x0, y0)` and the
clocking misfit is a parabola with its vertex at `th0`, then `calc_translation_clocking` returns `(x0, y0, th0)`, for every number of
iterations of the translation search and of the outer loop and every shrink factor — provided the clocking search runs one iteration or
the shrink factor is 1.  Missing: the clocking search with several iterations and a shrink factor below 1, where the claim is false
(`C57_clocking_drift`, `C57_more_iterations_worse`). -/
theorem C57_registration_partial (Sp : Spline) (R : Rotate) (T : Shift) (S : Solver) (d : PhaseData) (whichDM : ℤ) (deltaV : Arr2 ℝ)
    (xP yP : ℝ) (dm1 dm2 : DmReg) (t : ClockTuning) (lam : ℝ) (h : ClockArgs d whichDM deltaV t lam)
    (c : DmReg) (hc : c = if whichDM = 1 then dm1 else dm2)
    (dmrad meas : Arr2 ℝ) (hv : voltsToDmh c.gain deltaV lam = .ok dmrad) (hm : IsMeasured S d meas)
    (F G : ℝ → ℝ → ℝ → ℝ) (hF : IsOffsetMisfit Sp R T S d.usable meas dmrad c F) (hG : IsClockMisfit Sp R T d.usable meas dmrad c G)
    (hn : 3 ≤ t.nOffset) (ho : t.offsetMax ≠ 0) (hn' : 3 ≤ t.nClock) (hcm : t.clockMaxDeg ≠ 0)
    (hex : t.nIterClock = 1 ∨ t.shrinkFac = 1) (x0 y0 th0 : ℝ)
    (hQ : ∀ th, th = c.thact ∨ th = th0 →
      QuadraticSearch (F th) t.nOffset.toNat t.shrinkFac (spacing t.offsetMax t.nOffset) t.nIterOffset.toNat (xP, yP) x0 y0)
    (hP : ∀ p, p = c.thact ∨ p = th0 → ∀ q, q = p ∨ q ∈ trials t.nClock.toNat (spacing t.clockMaxDeg t.nClock) p →
      Parabola (G x0 y0) (trials t.nClock.toNat (spacing t.clockMaxDeg t.nClock) q) th0) :
    calcTranslationClocking Sp R T S d whichDM deltaV xP yP dm1 dm2 t lam = .ok (x0, y0, th0) := by
  have hm := (isMeasured_iff S d meas (h.shapes.2.2.1.1.trans h.shapes.2.2.2.1.symm) (h.shapes.2.2.1.2.trans h.shapes.2.2.2.2.symm)).mp hm
  rw [clocking_eq Sp R T S d whichDM deltaV xP yP dm1 dm2 t lam h c hc dmrad meas hv hm,
    linspace_trials' t.offsetMax t.nOffset (by omega) t.shrinkFac]
  have := h.nIterBoth; have := h.nIterOffset
  obtain ⟨m, hN⟩ : ∃ m, t.nIterBoth.toNat = m + 1 := ⟨t.nIterBoth.toNat - 1, by omega⟩
  rw [hN]
  exact bothLoop_exact S _ _ F G (offsetCost_eq hF) (clockCost_eq hG) t hn h.nIterOffset ho h.shrink.1.ne' hn' hcm h.nIterClock hex x0 y0 th0
    (xP, yP) c.thact hQ hP m 0 (by omega) _ (Or.inl rfl) _ (Or.inl rfl)

/-- **C57**, what happens otherwise.  With one round of the outer loop and several clocking iterations, the error of the best trial angle
`th1` is multiplied by `(1 - 1/s) (1 - 1/s²) ... (1 - 1/s^(n-1))` instead of being removed. -/
theorem C57_clocking_drift (Sp : Spline) (R : Rotate) (T : Shift) (S : Solver) (d : PhaseData) (whichDM : ℤ) (deltaV : Arr2 ℝ)
    (xP yP : ℝ) (dm1 dm2 : DmReg) (t : ClockTuning) (lam : ℝ) (h : ClockArgs d whichDM deltaV t lam) (h1 : t.nIterBoth = 1)
    (c : DmReg) (hc : c = if whichDM = 1 then dm1 else dm2)
    (dmrad meas : Arr2 ℝ) (hv : voltsToDmh c.gain deltaV lam = .ok dmrad) (hm : IsMeasured S d meas)
    (F G : ℝ → ℝ → ℝ → ℝ) (hF : IsOffsetMisfit Sp R T S d.usable meas dmrad c F) (hG : IsClockMisfit Sp R T d.usable meas dmrad c G)
    (hn : 3 ≤ t.nOffset) (ho : t.offsetMax ≠ 0) (hn' : 3 ≤ t.nClock) (hcm : t.clockMaxDeg ≠ 0) (hi : 1 < t.nIterClock) (x0 y0 th0 : ℝ)
    (hQ : QuadraticSearch (F c.thact) t.nOffset.toNat t.shrinkFac (spacing t.offsetMax t.nOffset) t.nIterOffset.toNat (xP, yP) x0 y0)
    (hP : ∀ th1 ∈ trials t.nClock.toNat (spacing t.clockMaxDeg t.nClock) c.thact, ∀ i : ℕ, i + 1 < t.nIterClock → ScaledParabola (G x0 y0)
      (trials t.nClock.toNat (t.shrinkFac ^ (i + 1) * spacing t.clockMaxDeg t.nClock) (th0 + (th1 - th0) * driftFactor t.shrinkFac i))
      (t.shrinkFac ^ (i + 1)) th0) :
    ∃ th1 ∈ trials t.nClock.toNat (spacing t.clockMaxDeg t.nClock) c.thact,
      (∀ x ∈ trials t.nClock.toNat (spacing t.clockMaxDeg t.nClock) c.thact, G x0 y0 th1 ≤ G x0 y0 x) ∧
      calcTranslationClocking Sp R T S d whichDM deltaV xP yP dm1 dm2 t lam =
        .ok (x0, y0, th0 + (th1 - th0) * driftFactor t.shrinkFac (t.nIterClock.toNat - 1)) := by
  have hm := (isMeasured_iff S d meas (h.shapes.2.2.1.1.trans h.shapes.2.2.2.1.symm) (h.shapes.2.2.1.2.trans h.shapes.2.2.2.2.symm)).mp hm
  have := h.nIterOffset
  obtain ⟨th1, m1, m2, e⟩ := clockLoop_many S (clockCost Sp R T d.usable meas dmrad c x0 y0) (G x0 y0) (clockCost_eq hG x0 y0) t hn' hcm
    h.shrink.1.ne' hi th0 c.thact hP
  refine ⟨th1, m1, m2, ?_⟩
  rw [clocking_eq Sp R T S d whichDM deltaV xP yP dm1 dm2 t lam h c hc dmrad meas hv hm,
    linspace_trials' t.offsetMax t.nOffset (by omega) t.shrinkFac, h1, show (1 : ℤ).toNat = 0 + 1 from rfl, bothLoop]
  obtain ⟨k, -, ek⟩ := offsetLoop_exact S (offsetCost Sp R T S d.usable meas dmrad c c.thact) (F c.thact) (offsetCost_eq hF c.thact) t hn
    h.nIterOffset ho h.shrink.1.ne' x0 y0 (xP, yP) (xP, yP) hQ (Or.inl rfl) 0 (by omega)
  rw [ek, res_ok_bind]
  simp only
  rw [e, res_ok_bind, bothLoop]

/-- **C57.**  Inputs with mismatched shapes or out-of-range parameters raise `ValueError`. -/
theorem C57_rejects (Sp : Spline) (R : Rotate) (T : Shift) (S : Solver) (d : PhaseData) (whichDM : ℤ) (deltaV : Arr2 ℝ)
    (xP yP : ℝ) (dm1 dm2 : DmReg) (t : ClockTuning) (lam : ℝ) (h : ¬ ClockArgs d whichDM deltaV t lam) :
    calcTranslationClocking Sp R T S d whichDM deltaV xP yP dm1 dm2 t lam = .error .valueError := by
  unfold calcTranslationClocking
  by_cases h1 : d.shapesDiffer
  · rw [if_pos h1]
  rw [if_neg h1]
  by_cases h2 : whichDM = 1 ∨ whichDM = 2
  swap
  · rw [if_pos h2]
  rw [if_neg (not_not.mpr h2)]
  by_cases h3 : deltaV.nr = deltaV.nc
  swap
  · rw [if_pos h3]
  rw [if_neg (not_not.mpr h3)]
  by_cases h4 : lam ≤ 0
  · rw [if_pos h4]
  rw [if_neg h4]
  rw [if_pos]
  by_contra h5
  unfold PhaseData.shapesDiffer at h1
  push Not at h1 h4 h5
  obtain ⟨⟨a1, a2⟩, ⟨b1, b2⟩, ⟨c1, c2⟩, ⟨d1, d2⟩⟩ := h1
  obtain ⟨e1, e2, e3, e4, e5, e6, e7⟩ := h5
  exact h ⟨⟨⟨a1.symm, a2.symm⟩, ⟨b1.symm, b2.symm⟩, ⟨c1.symm, c2.symm⟩, d1.symm, d2.symm⟩, h2, h3, h4, e1, e2, e3, ⟨e4, e5⟩, e6, e7⟩

/-! ### C74: scale -/

theorem scale_trials (delta : ℝ) (n : ℤ) (hn : 2 ≤ n) :
    linspaceList (1 - delta) (1 + delta) n.toNat = trials n.toNat (2 * delta / ((n.toNat : ℝ) - 1)) 1 := by
  obtain ⟨n, rfl⟩ := Int.eq_ofNat_of_zero_le (show 0 ≤ n by omega)
  have h : ((n : ℝ) - 1) ≠ 0 := by
    have : (2 : ℝ) ≤ n := by exact_mod_cast hn
    linarith
  unfold linspaceList trials linspace
  refine List.map_congr_left fun k _ => ?_
  simp only [Int.toNat_natCast]
  field_simp
  ring

theorem scaleLoop_fit (S : Solver) (A : ℝ → ℝ → Prop) (cost : ℝ → ℝ → Res ℝ) (H : ℝ → ℝ → ℝ) (hH : ∀ x y, A x y → cost x y = .ok (H x y))
    (t : ScaleTuning) (hn : 3 ≤ t.nScale) (delta : ℝ) (hd : delta ≠ 0) (hs : t.shrinkFac ≠ 0) (X0 Y0 : ℝ)
    (left iter : ℕ) (hit : ¬ (iter = 0 ∧ t.nIter > 1)) (sx sy : ℝ)
    (he : ScaleGrid A H t.nScale.toNat X0 Y0 sx sy (t.shrinkFac ^ iter * delta))
    (h0 : ∀ k, iter < k → k < iter + left + 1 → ScaleGrid A H t.nScale.toNat X0 Y0 X0 Y0 (t.shrinkFac ^ k * delta)) :
    scaleLoop S cost t (left + 1) iter (t.shrinkFac ^ iter * delta) (sx, sy) = .ok (X0, Y0) := by
  have one : ∀ (iter : ℕ) (_ : ¬ (iter = 0 ∧ t.nIter > 1)) (sx sy : ℝ) (_ : ScaleGrid A H t.nScale.toNat X0 Y0 sx sy (t.shrinkFac ^ iter * delta)) (left : ℕ),
      scaleLoop S cost t (left + 1) iter (t.shrinkFac ^ iter * delta) (sx, sy) =
        scaleLoop S cost t left (iter + 1) (t.shrinkFac ^ (iter + 1) * delta) (X0, Y0) := by
    intro iter hit sx sy he left
    rw [scaleLoop]
    simp only
    have hst : 2 * (t.shrinkFac ^ iter * delta) / ((t.nScale.toNat : ℝ) - 1) ≠ 0 := by
      have : ((t.nScale.toNat : ℝ) - 1) ≠ 0 := by
        have : (3 : ℝ) ≤ t.nScale.toNat := by exact_mod_cast (show 3 ≤ t.nScale.toNat by omega)
        linarith
      exact div_ne_zero (mul_ne_zero two_ne_zero (mul_ne_zero (pow_ne_zero _ hs) hd)) this
    rw [scale_trials _ _ (by omega), costGrid_ok _ _ _ (fun u v => H (u * sx) (v * sy)) (fun u hu v hv => hH _ _ (he.defined u hu v hv)), res_ok_bind,
      if_neg hit, gridFit_paraboloid S _ _ (fun u v => H (u * sx) (v * sy)) _ _ (trials_three _ (by omega) _ _ hst) (trials_three _ (by omega) _ _ hst) he.quadratic,
      res_ok_bind, div_mul_cancel₀ _ he.nonzero.1, div_mul_cancel₀ _ he.nonzero.2, ← mul_assoc, ← pow_succ']
  induction left generalizing iter sx sy with
  | zero =>
    rw [one iter hit sx sy he 0]
    rfl
  | succ left ih =>
    rw [one iter hit sx sy he (left + 1)]
    exact ih (iter + 1) (by omega) X0 Y0 (h0 (iter + 1) (by omega) (by omega)) fun k h1 h2 => h0 k (by omega) (by omega)

theorem scaleLoop_exact (S : Solver) (A : ℝ → ℝ → Prop) (cost : ℝ → ℝ → Res ℝ) (H : ℝ → ℝ → ℝ) (hH : ∀ x y, A x y → cost x y = .ok (H x y))
    (t : ScaleTuning) (hn : 3 ≤ t.nScale) (hd : t.maxDelta ≠ 0) (hs : t.shrinkFac ≠ 0) (hi : 0 < t.nIter) (X0 Y0 : ℝ)
    (h : ScaleSearch A H t.nScale.toNat t.shrinkFac t.maxDelta t.nIter.toNat X0 Y0) :
    scaleLoop S cost t t.nIter.toNat 0 t.maxDelta (1, 1) = .ok (X0, Y0) := by
  obtain ⟨h1, h2, h3⟩ := h
  by_cases hN : t.nIter = 1
  · have hN' : t.nIter.toNat = 0 + 1 := by omega
    have := scaleLoop_fit S A cost H hH t hn t.maxDelta hd hs X0 Y0 0 0 (by omega) 1 1 (by rw [pow_zero, one_mul]; exact h1 (by omega)) (by omega)
    rw [pow_zero, one_mul] at this
    rw [hN', this]
  · obtain ⟨m, hm⟩ : ∃ m, t.nIter.toNat = m + 2 := ⟨t.nIter.toNat - 2, by omega⟩
    have h2' := h2 (by omega)
    rw [hm, scaleLoop]
    simp only [mul_one]
    rw [scale_trials _ _ (by omega), costGrid_ok _ _ _ H (fun u hu v hv => hH _ _ (h2' u hu v hv).1), res_ok_bind,
      if_pos (⟨trivial, by omega⟩ : True ∧ t.nIter > 1), res_ok_bind]
    have hne := trials_ne_nil t.nScale.toNat (by omega) (2 * t.maxDelta / ((t.nScale.toNat : ℝ) - 1)) 1
    obtain ⟨g1, g2, -⟩ := gridArgmin_spec (trials t.nScale.toNat (2 * t.maxDelta / ((t.nScale.toNat : ℝ) - 1)) 1)
      (trials t.nScale.toNat (2 * t.maxDelta / ((t.nScale.toNat : ℝ) - 1)) 1) H hne hne
    generalize gridArgmin (trials t.nScale.toNat (2 * t.maxDelta / ((t.nScale.toNat : ℝ) - 1)) 1)
      (trials t.nScale.toNat (2 * t.maxDelta / ((t.nScale.toNat : ℝ) - 1)) 1) _ = g at g1 g2 ⊢
    have := scaleLoop_fit S A cost H hH t hn t.maxDelta hd hs X0 Y0 m (0 + 1) (by omega) g.1 g.2 (by
      rw [Nat.zero_add, pow_one]; exact (h2' _ g1 _ g2).2) (fun k hk hk' => h3 k (by omega) (by omega))
    rw [Nat.zero_add, pow_one] at this
    rw [Nat.zero_add]
    exact this

/-- The inputs `calc_scale` accepts. -/
structure ScaleArgs (d : PhaseData) (whichDM : ℤ) (deltaV : Arr2 ℝ) (t : ScaleTuning) (lam : ℝ) : Prop where
  shapes : (d.ph0.nr = d.amp0.nr ∧ d.ph0.nc = d.amp0.nc) ∧ (d.amp1.nr = d.amp0.nr ∧ d.amp1.nc = d.amp0.nc) ∧
    (d.ph1.nr = d.amp0.nr ∧ d.ph1.nc = d.amp0.nc) ∧ (d.usable.nr = d.amp0.nr ∧ d.usable.nc = d.amp0.nc)
  which : whichDM = 1 ∨ whichDM = 2
  square : deltaV.nr = deltaV.nc
  lam : 0 < lam
  nScale : 0 < t.nScale
  nIter : 0 < t.nIter
  shrink : 0 < t.shrinkFac ∧ t.shrinkFac ≤ 1

/-- **C75** (partial).  For a square image the phase simulated by `calc_scale` is twice the surface given by `dmhtoph` on the grid of the
image.  Missing: other images, where this is false (`C75_nonsquare_blank`). -/
theorem C75_square_partial (Sp : Spline) (R : Rotate) (T : Shift) (n : ℤ) (dmrad : Arr2 ℝ) (c : DmReg) (dx dy th cx cy : ℝ) (surf : Arr2 ℝ)
    (h : dmhtoph Sp R T n n dmrad c.nact c.inf c.ppactD cx cy dx dy th false = .ok surf) :
    scaleSim Sp R T n n dmrad c dx dy th cx cy = .ok (surf.map fun v : ℝ => v * 2) := by
  have hA := dmh_args h
  obtain ⟨h1, h2⟩ := (C62_shape Sp R T n n dmrad c.nact c.inf c.ppactD cx cy dx dy th false).2 _ h
  have hn := hA.rows
  unfold scaleSim
  rw [h, res_ok_bind]
  have := C03_same_shape_is_copy (surf.map fun v : ℝ => v * 2) 0 (show 0 < surf.nr by omega) (show 0 < surf.nc by omega)
  refine Eq.trans ?_ this
  congr 1
  refine congrArg₂ (fun a b => [a, b]) h1.symm h2.symm

/-- **C75**, the other images: outside the largest centred square the phase simulated by `calc_scale` is zero, whatever the DM does. -/
theorem C75_nonsquare_blank (Sp : Spline) (R : Rotate) (T : Shift) (nrow ncol : ℤ) (dmrad : Arr2 ℝ) (c : DmReg) (dx dy th cx cy : ℝ) (sim : Arr2 ℝ)
    (h : scaleSim Sp R T nrow ncol dmrad c dx dy th cx cy = .ok sim) :
    (sim.nr : ℤ) = nrow ∧ (sim.nc : ℤ) = ncol ∧
    ∀ k l, Reaches nrow ncol k l → ¬ Reaches (min nrow ncol) (min nrow ncol) k l → sim.centered k l = some 0 := by
  unfold scaleSim at h
  obtain ⟨surf, h1, h2⟩ := res_bind_ok h
  obtain ⟨s1, s2⟩ := (C62_shape Sp R T ncol nrow dmrad c.nact c.inf c.ppactD cx cy dx dy th false).2 _ h1
  obtain ⟨p1, p2, p3⟩ := crop_at h2
  refine ⟨p1, p2, fun k l hkl hn => ?_⟩
  rw [p3 k l hkl]
  have : (surf.map fun v : ℝ => v * 2).centered k l = none := by
    rw [centered_eq_none]
    intro hr
    have hr' : Reaches (surf.nr : ℤ) (surf.nc : ℤ) k l := hr
    rw [s1, s2] at hr'
    unfold Reaches at hr' hkl hn
    apply hn
    rcases le_total nrow ncol with hle | hle
    · rw [min_eq_left hle]; exact ⟨hkl.1, hr'.2⟩
    · rw [min_eq_right hle]; exact ⟨hr'.1, hkl.2⟩
  rw [this]
  rfl

/-- **C74.**  For square images: if the misfit is a paraboloid of the relative scale changes, centred on the scale factors `(X0, Y0)`, at the
scales the search tries, then `calc_scale` returns `X0` and `Y0` times the pixels per actuator of the calibration, for every shrink factor
and number of iterations. -/
theorem C74_scale (Sp : Spline) (R : Rotate) (T : Shift) (S : Solver) (d : PhaseData) (whichDM : ℤ) (deltaV : Arr2 ℝ) (dm1 dm2 : DmReg)
    (t : ScaleTuning) (lam xo yo th : ℝ) (h : ScaleArgs d whichDM deltaV t lam) (hsq : d.amp0.nr = d.amp0.nc)
    (c : DmReg) (hc : c = if whichDM = 1 then dm1 else dm2)
    (dmrad meas : Arr2 ℝ) (hv : voltsToDmh c.gain deltaV lam = .ok dmrad) (hm : IsMeasured S d meas)
    (A : ℝ → ℝ → Prop) (H : ℝ → ℝ → ℝ) (hH : IsScaleMisfit Sp R T S d.usable meas dmrad c xo yo th A H)
    (hn : 3 ≤ t.nScale) (hd : t.maxDelta ≠ 0) (X0 Y0 : ℝ)
    (hQ : ScaleSearch A H t.nScale.toNat t.shrinkFac t.maxDelta t.nIter.toNat X0 Y0) :
    calcScale Sp R T S d whichDM deltaV dm1 dm2 t lam xo yo th = .ok (X0 * c.cx, Y0 * c.cy) := by
  have hm := (isMeasured_iff S d meas (h.shapes.2.2.1.1.trans h.shapes.2.2.2.1.symm) (h.shapes.2.2.1.2.trans h.shapes.2.2.2.2.symm)).mp hm
  obtain ⟨⟨a1, a2⟩, ⟨b1, b2⟩, ⟨c1, c2⟩, ⟨d1, d2⟩⟩ := h.shapes
  have := h.nScale; have := h.nIter; have := h.shrink
  unfold calcScale
  rw [if_neg (by
    unfold PhaseData.shapesDiffer
    push Not
    exact ⟨⟨a1.symm, a2.symm⟩, ⟨b1.symm, b2.symm⟩, ⟨c1.symm, c2.symm⟩, d1.symm, d2.symm⟩), if_neg (not_not.mpr h.which), if_neg (not_not.mpr h.square),
    if_neg (not_le.mpr h.lam), if_neg (by rintro (h | h | h | h) <;> first | omega | linarith)]
  simp only [← hc]
  rw [hv, res_ok_bind, hm, res_ok_bind]
  have hu : d.usable.nc = d.usable.nr := by omega
  rw [scaleLoop_exact S A _ H (fun x y hxy => by
    obtain ⟨surf, sim, e1, e2, e3⟩ := hH x y hxy
    unfold scaleCost
    rw [hu] at e1 ⊢
    rw [C75_square_partial Sp R T d.usable.nr dmrad c xo yo th (x * c.cx) (y * c.cy) surf e1, res_ok_bind, e2, res_ok_bind, e3, misfit_eq])
    t hn hd h.shrink.1.ne' h.nIter X0 Y0 hQ, res_ok_bind]

/-- **C74.**  Inputs with mismatched shapes or out-of-range parameters raise `ValueError`. -/
theorem C74_rejects (Sp : Spline) (R : Rotate) (T : Shift) (S : Solver) (d : PhaseData) (whichDM : ℤ) (deltaV : Arr2 ℝ) (dm1 dm2 : DmReg)
    (t : ScaleTuning) (lam xo yo th : ℝ) (h : ¬ ScaleArgs d whichDM deltaV t lam) :
    calcScale Sp R T S d whichDM deltaV dm1 dm2 t lam xo yo th = .error .valueError := by
  unfold calcScale
  by_cases h1 : d.shapesDiffer
  · rw [if_pos h1]
  rw [if_neg h1]
  by_cases h2 : whichDM = 1 ∨ whichDM = 2
  swap
  · rw [if_pos h2]
  rw [if_neg (not_not.mpr h2)]
  by_cases h3 : deltaV.nr = deltaV.nc
  swap
  · rw [if_pos h3]
  rw [if_neg (not_not.mpr h3)]
  by_cases h4 : lam ≤ 0
  · rw [if_pos h4]
  rw [if_neg h4]
  rw [if_pos]
  by_contra h5
  unfold PhaseData.shapesDiffer at h1
  push Not at h1 h4 h5
  obtain ⟨⟨a1, a2⟩, ⟨b1, b2⟩, ⟨c1, c2⟩, ⟨d1, d2⟩⟩ := h1
  obtain ⟨e1, e2, e3, e4⟩ := h5
  exact h ⟨⟨⟨a1.symm, a2.symm⟩, ⟨b1.symm, b2.symm⟩, ⟨c1.symm, c2.symm⟩, d1.symm, d2.symm⟩, h2, h3, h4, e1, e2, e3, e4⟩

end Coralign.Props
