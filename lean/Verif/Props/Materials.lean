import Verif.Model.Materials
import Verif.Spec.MaterialData
import Verif.Props.HlcOcculterCases
import Mathlib.Tactic.NormNum.OfScientific

/-!
# The refractive indices behind the occulter (C89), and what an occulter cell is (C71)
-/

namespace Coralign.Spec

/-- Neighbouring rows of a table. -/
def Neighbours {α : Type} (t : List α) (a b : α) : Prop := ∃ l₁ l₂, t = l₁ ++ a :: b :: l₂

/-- Reflected amplitude `r` and flux-normalised transmitted amplitude `t` of a stack of slabs between vacuum and a substrate of real index `ns`, for
light of wavelength `lam` arriving at the angle `theta`: the plane waves of all media match at every interface, and behind the stack there is
only a wave that travels away (the code counts normal wavenumbers as negative in the direction of the light). -/
def FilmAmplitudes (theta lam : ℝ) (tm : Bool) (layers : List (ℂ × ℝ)) (ns : ℝ) (r t : ℂ) : Prop :=
  ∃ (qs : ℝ) (t0 : ℂ), qs < 0 ∧ NormalWave (2 * Real.pi * Real.sin theta / lam) lam ns qs ∧
    Scatters (2 * Real.pi * Real.sin theta / lam) lam tm (admittance tm 1 ((-(2 * Real.pi * Real.cos theta / lam) : ℝ) : ℂ)) layers (admittance tm ns qs) r t0 ∧
    t = (Real.sqrt (admittance tm ns qs / admittance tm 1 ((-(2 * Real.pi * Real.cos theta / lam) : ℝ) : ℂ)).re : ℂ) * t0

end Coralign.Spec

namespace Coralign.Props

open Coralign Coralign.Spec

/-! ### Interpolation in a table -/

theorem npInterp_left (x : ℝ) (p : ℝ × ℝ) (l : List (ℝ × ℝ)) (h : x ≤ p.1) (hs : (p :: l).IsChain (fun a b => a.1 < b.1)) :
    npInterp x (p :: l) = p.2 := by
  cases l with
  | nil => rfl
  | cons q l =>
    rw [List.isChain_cons_cons] at hs
    unfold npInterp
    rcases lt_or_eq_of_le h with h | h
    · rw [if_pos h]
    · rw [if_neg (by simp [h]), if_pos (by rw [h]; exact hs.1), h]; ring

theorem npInterp_cons (x : ℝ) (p q : ℝ × ℝ) (l : List (ℝ × ℝ)) (hs : p.1 < q.1) (h : q.1 ≤ x) :
    npInterp x (p :: q :: l) = npInterp x (q :: l) := by
  conv_lhs => unfold npInterp
  rw [if_neg (by linarith), if_neg (by linarith)]

theorem npInterp_append (x : ℝ) (l₁ l₂ : List (ℝ × ℝ)) (q : ℝ × ℝ) (hs : (l₁ ++ q :: l₂).IsChain (fun a b => a.1 < b.1)) (h : q.1 ≤ x) :
    npInterp x (l₁ ++ q :: l₂) = npInterp x (q :: l₂) := by
  induction l₁ with
  | nil => rfl
  | cons p l₁ ih =>
    have hp : (p :: (l₁ ++ q :: l₂)).IsChain (fun a b : ℝ × ℝ => a.1 < b.1) := hs
    have hpw : (p :: (l₁ ++ q :: l₂)).Pairwise (fun a b : ℝ × ℝ => a.1 < b.1) := by
      haveI : IsTrans (ℝ × ℝ) (fun a b => a.1 < b.1) := ⟨fun a b c h1 h2 => lt_trans h1 h2⟩
      exact List.isChain_iff_pairwise.1 hp
    cases hl : l₁ ++ q :: l₂ with
    | nil => simp at hl
    | cons r m =>
      have hr : r.1 ≤ q.1 := by
        cases l₁ with
        | nil => simp at hl; rw [hl.1]
        | cons a l₁ =>
          simp only [List.cons_append, List.cons.injEq] at hl
          have h2 := (List.pairwise_cons.1 hpw).2
          simp only [List.cons_append] at h2
          have := (List.pairwise_cons.1 h2).1 q (by simp)
          rw [← hl.1]; exact this.le
      have h1 : p.1 < r.1 := by rw [hl] at hp; exact (List.isChain_cons_cons.1 hp).1
      show npInterp x (p :: (l₁ ++ q :: l₂)) = _
      rw [hl, npInterp_cons x p r m h1 (hr.trans h), ← hl]
      exact ih (List.isChain_of_isChain_cons hp)

theorem npInterp_bounds (x lo hi : ℝ) (t : List (ℝ × ℝ)) (hne : t ≠ []) (hs : t.IsChain (fun a b => a.1 < b.1)) (h : ∀ p ∈ t, lo ≤ p.2 ∧ p.2 ≤ hi) :
    lo ≤ npInterp x t ∧ npInterp x t ≤ hi := by
  induction t with
  | nil => exact absurd rfl hne
  | cons p l ih =>
    cases l with
    | nil => exact h p (by simp)
    | cons q l =>
      have hpq := (List.isChain_cons_cons.1 hs).1
      obtain ⟨a1, a2⟩ := h p (by simp)
      obtain ⟨b1, b2⟩ := h q (by simp)
      unfold npInterp
      split_ifs with h1 h2
      · exact ⟨a1, a2⟩
      · rw [not_lt] at h1
        have hd : 0 < q.1 - p.1 := by linarith
        have h0 : 0 ≤ (x - p.1) / (q.1 - p.1) := div_nonneg (by linarith) hd.le
        have h1 : (x - p.1) / (q.1 - p.1) ≤ 1 := (div_le_one hd).2 (by linarith)
        have : (q.2 - p.2) / (q.1 - p.1) * (x - p.1) + p.2 = p.2 + (x - p.1) / (q.1 - p.1) * (q.2 - p.2) := by ring
        rw [this]
        constructor <;> nlinarith
      · exact ih (by simp) (List.isChain_of_isChain_cons hs) fun p hp => h p (by simp [hp])

/-- A table with increasing wavelengths. -/
def Increasing (t : List (ℚ × ℚ × ℚ)) : Prop := t.IsChain (fun a b => a.1 < b.1)

theorem Increasing.cast {t : List (ℚ × ℚ × ℚ)} (h : Increasing t) (col : ℚ × ℚ → ℚ) :
    (t.map fun r => ((r.1 : ℝ), (col r.2 : ℝ))).IsChain (fun a b => a.1 < b.1) := by
  rw [List.isChain_map]
  exact h.imp fun a b hab => by show (a.1 : ℝ) < b.1; exact_mod_cast hab

theorem tableAt_between {t : List (ℚ × ℚ × ℚ)} (h : Increasing t) (col : ℚ × ℚ → ℚ) (a b : ℚ × ℚ × ℚ) (hab : Neighbours t a b) (x : ℝ)
    (hx : (a.1 : ℝ) ≤ x) (hx' : x ≤ b.1) :
    tableAt t col x = col a.2 + (x - a.1) / (b.1 - a.1) * (col b.2 - col a.2) := by
  obtain ⟨l₁, l₂, rfl⟩ := hab
  have hs := h.cast col
  unfold tableAt
  rw [List.map_append] at hs ⊢
  rw [List.map_cons, List.map_cons] at hs ⊢
  rw [npInterp_append x _ _ _ hs hx]
  have hs' := (List.isChain_append.1 hs).2.1
  have hab : (a.1 : ℝ) < b.1 := (List.isChain_cons_cons.1 hs').1
  have hd : (b.1 : ℝ) - a.1 ≠ 0 := by linarith
  rcases lt_or_eq_of_le hx' with hx' | hx'
  · unfold npInterp
    rw [if_neg (by simpa using hx), if_pos (by simpa using hx')]
    simp only
    ring
  · rw [npInterp_cons x _ _ _ hab (by simp [hx']), npInterp_left x _ _ (by simp [hx']) (List.isChain_of_isChain_cons hs'), hx', div_self hd]
    simp only
    ring

theorem tableAt_row {t : List (ℚ × ℚ × ℚ)} (h : Increasing t) (col : ℚ × ℚ → ℚ) (a : ℚ × ℚ × ℚ) (ha : a ∈ t) : tableAt t col a.1 = col a.2 := by
  obtain ⟨l₁, l₂, rfl⟩ := List.append_of_mem ha
  have hs := h.cast col
  unfold tableAt
  rw [List.map_append, List.map_cons] at hs ⊢
  rw [npInterp_append _ _ _ _ hs le_rfl, npInterp_left _ _ _ le_rfl (List.isChain_append.1 hs).2.1]

theorem tableAt_below {t l : List (ℚ × ℚ × ℚ)} (h : Increasing t) (col : ℚ × ℚ → ℚ) (a : ℚ × ℚ × ℚ) (ha : t = a :: l) (x : ℝ) (hx : x ≤ a.1) :
    tableAt t col x = col a.2 := by
  subst ha
  exact npInterp_left x _ _ hx (h.cast col)

theorem tableAt_above {t l : List (ℚ × ℚ × ℚ)} (h : Increasing t) (col : ℚ × ℚ → ℚ) (a : ℚ × ℚ × ℚ) (ha : t = l ++ [a]) (x : ℝ) (hx : (a.1 : ℝ) ≤ x) :
    tableAt t col x = col a.2 := by
  subst ha
  have hs := h.cast col
  unfold tableAt
  rw [List.map_append, List.map_cons] at hs ⊢
  rw [npInterp_append _ _ _ _ hs hx]
  rfl

theorem titanium_increasing : Increasing titaniumTable := by unfold Increasing titaniumTable; decide +kernel
theorem nickel_increasing : Increasing nickelTable := by unfold Increasing nickelTable; decide +kernel

theorem forall_cast (t : List (ℚ × ℚ × ℚ)) (col : ℚ × ℚ → ℚ) (lo hi : ℚ) (h : ∀ r ∈ t, lo ≤ col r.2 ∧ col r.2 ≤ hi) (hne : t ≠ [])
    (hi' : Increasing t) (x : ℝ) : (lo : ℝ) ≤ tableAt t col x ∧ tableAt t col x ≤ hi := by
  apply npInterp_bounds x lo hi _ (by simpa using hne) (hi'.cast col)
  intro p hp
  obtain ⟨r, hr, rfl⟩ := List.mem_map.1 hp
  have h1 : (lo : ℝ) ≤ col r.2 := by exact_mod_cast (h r hr).1
  have h2 : (col r.2 : ℝ) ≤ hi := by exact_mod_cast (h r hr).2
  exact ⟨h1, h2⟩

/-- The tables of the model are the published data. -/
theorem table_data : titaniumTable = Spec.titaniumData.map Spec.dataRow ∧ nickelTable = Spec.nickelData.map Spec.dataRow := by
  constructor <;> decide +kernel

/-- **C89.** At a tabulated wavelength the metals have the published index and extinction. -/
theorem C89_tabulated (nm n k : ℕ) :
    ((nm, n, k) ∈ Spec.titaniumData → (materialsAt (nm / 10000000000)).nTi = n / 100 ∧ (materialsAt (nm / 10000000000)).kTi = k / 100) ∧
    ((nm, n, k) ∈ Spec.nickelData → (materialsAt (nm / 10000000000)).nNi = n / 100 ∧ (materialsAt (nm / 10000000000)).kNi = k / 100) := by
  have h : (nm : ℝ) / 10000000000 * 1000000000 = (((nm : ℚ) / 10 : ℚ) : ℝ) := by push_cast; ring
  have hn : ∀ n : ℕ, (n : ℝ) / 100 = (((n : ℚ) / 100 : ℚ) : ℝ) := by intro n; push_cast; ring
  have mem : ∀ l : List (ℕ × ℕ × ℕ), (nm, n, k) ∈ l → ((nm : ℚ) / 10, (n : ℚ) / 100, (k : ℚ) / 100) ∈ l.map Spec.dataRow := fun l hl =>
    List.mem_map.mpr ⟨_, hl, rfl⟩
  refine ⟨fun hm => ?_, fun hm => ?_⟩
  · have hm' := mem _ hm
    rw [← table_data.1] at hm'
    simp only [materialsAt, h, hn]
    exact ⟨tableAt_row titanium_increasing _ _ hm', tableAt_row titanium_increasing _ _ hm'⟩
  · have hm' := mem _ hm
    rw [← table_data.2] at hm'
    simp only [materialsAt, h, hn]
    exact ⟨tableAt_row nickel_increasing _ _ hm', tableAt_row nickel_increasing _ _ hm'⟩

/-- Nickel at 636 nm. -/
example : (materialsAt (6360 / 10000000000)).nNi = 198 / 100 := by
  have := ((C89_tabulated 6360 198 374).2 (by decide)).1
  push_cast at this
  exact this

/-- **C89.** Between neighbouring tabulated wavelengths index and extinction lie on the straight line between the published values. -/
theorem C89_between (lam : ℝ) (a b : ℚ × ℚ × ℚ) (hx : (a.1 : ℝ) ≤ lam * 1000000000) (hx' : lam * 1000000000 ≤ b.1) :
    (Neighbours (Spec.titaniumData.map Spec.dataRow) a b →
      (materialsAt lam).nTi = a.2.1 + (lam * 1000000000 - a.1) / (b.1 - a.1) * (b.2.1 - a.2.1) ∧
      (materialsAt lam).kTi = a.2.2 + (lam * 1000000000 - a.1) / (b.1 - a.1) * (b.2.2 - a.2.2)) ∧
    (Neighbours (Spec.nickelData.map Spec.dataRow) a b →
      (materialsAt lam).nNi = a.2.1 + (lam * 1000000000 - a.1) / (b.1 - a.1) * (b.2.1 - a.2.1) ∧
      (materialsAt lam).kNi = a.2.2 + (lam * 1000000000 - a.1) / (b.1 - a.1) * (b.2.2 - a.2.2)) := by
  rw [← table_data.1, ← table_data.2]
  exact ⟨fun h => ⟨tableAt_between titanium_increasing _ a b h _ hx hx', tableAt_between titanium_increasing _ a b h _ hx hx'⟩,
    fun h => ⟨tableAt_between nickel_increasing _ a b h _ hx hx', tableAt_between nickel_increasing _ a b h _ hx hx'⟩⟩

/-- **C89 (a limit).** Outside the tables there is no extrapolation: titanium keeps its first value below 397 nm and its last above 1216 nm, nickel below
302.4 nm and above 12400 nm.  No exception is raised. -/
theorem C89_outside (lam : ℝ) :
    (lam * 1000000000 ≤ 397 → (materialsAt lam).nTi = 2.08 ∧ (materialsAt lam).kTi = 2.95) ∧
    (1216 ≤ lam * 1000000000 → (materialsAt lam).nTi = 3.62 ∧ (materialsAt lam).kTi = 4.15) ∧
    (lam * 1000000000 ≤ 302.4 → (materialsAt lam).nNi = 1.74 ∧ (materialsAt lam).kNi = 1.99) ∧
    (12400 ≤ lam * 1000000000 → (materialsAt lam).nNi = 9.54 ∧ (materialsAt lam).kNi = 45.8) := by
  refine ⟨fun h => ?_, fun h => ?_, fun h => ?_, fun h => ?_⟩
  · have h' : lam * 1000000000 ≤ ((397 : ℚ) : ℝ) := by push_cast; exact h
    constructor
    · exact (tableAt_below titanium_increasing Prod.fst (397, 2.08, 2.95) rfl _ h').trans (by norm_num)
    · exact (tableAt_below titanium_increasing Prod.snd (397, 2.08, 2.95) rfl _ h').trans (by norm_num)
  · have h' : ((1216 : ℚ) : ℝ) ≤ lam * 1000000000 := by push_cast; exact h
    constructor
    · exact (tableAt_above titanium_increasing Prod.fst (1216, 3.62, 4.15) (l := titaniumTable.dropLast) rfl _ h').trans (by norm_num)
    · exact (tableAt_above titanium_increasing Prod.snd (1216, 3.62, 4.15) (l := titaniumTable.dropLast) rfl _ h').trans (by norm_num)
  · have h' : lam * 1000000000 ≤ ((302.4 : ℚ) : ℝ) := by push_cast; norm_num at h ⊢; exact h
    constructor
    · exact (tableAt_below nickel_increasing Prod.fst (302.4, 1.74, 1.99) rfl _ h').trans (by norm_num)
    · exact (tableAt_below nickel_increasing Prod.snd (302.4, 1.74, 1.99) rfl _ h').trans (by norm_num)
  · have h' : ((12400 : ℚ) : ℝ) ≤ lam * 1000000000 := by push_cast; exact h
    constructor
    · exact (tableAt_above nickel_increasing Prod.fst (12400, 9.54, 45.8) (l := nickelTable.dropLast) rfl _ h').trans (by norm_num)
    · exact (tableAt_above nickel_increasing Prod.snd (12400, 9.54, 45.8) (l := nickelTable.dropLast) rfl _ h').trans (by norm_num)

/-- **C89.** At every wavelength the metals have index and extinction within the range of the tables. -/
theorem C89_metals (lam : ℝ) :
    (2.08 ≤ (materialsAt lam).nTi ∧ (materialsAt lam).nTi ≤ 3.62) ∧ (2.95 ≤ (materialsAt lam).kTi ∧ (materialsAt lam).kTi ≤ 4.15) ∧
    (1.61 ≤ (materialsAt lam).nNi ∧ (materialsAt lam).nNi ≤ 9.54) ∧ (1.98 ≤ (materialsAt lam).kNi ∧ (materialsAt lam).kNi ≤ 45.8) := by
  have h1 := forall_cast titaniumTable Prod.fst 2.08 3.62 (by decide +kernel) (by decide) titanium_increasing (lam * 1000000000)
  have h2 := forall_cast titaniumTable Prod.snd 2.95 4.15 (by decide +kernel) (by decide) titanium_increasing (lam * 1000000000)
  have h3 := forall_cast nickelTable Prod.fst 1.61 9.54 (by decide +kernel) (by decide) nickel_increasing (lam * 1000000000)
  have h4 := forall_cast nickelTable Prod.snd 1.98 45.8 (by decide +kernel) (by decide) nickel_increasing (lam * 1000000000)
  norm_num at h1 h2 h3 h4 ⊢
  exact ⟨h1, h2, h3, h4⟩

/-! ### Dispersion of the dielectrics -/

theorem sellmeier_term {A B s t : ℝ} (hA : 0 < A) (hB : 0 < B) (hst : s < t) (h : B < s ∨ t < B) : A * t / (t - B) < A * s / (s - B) := by
  have e : ∀ u : ℝ, u - B ≠ 0 → A * u / (u - B) = A + A * B / (u - B) := by intro u hu; field_simp; ring
  have hs : s - B ≠ 0 := by rcases h with h | h <;> intro h0 <;> linarith
  have ht : t - B ≠ 0 := by rcases h with h | h <;> intro h0 <;> linarith
  rw [e s hs, e t ht]
  have hAB := mul_pos hA hB
  have : A * B / (t - B) < A * B / (s - B) := by
    rcases h with h | h
    · exact div_lt_div_of_pos_left hAB (by linarith) (by linarith)
    · rw [← neg_lt_neg_iff, ← div_neg, ← div_neg]
      exact div_lt_div_of_pos_left hAB (by linarith) (by linarith)
  linarith

/-- The radicand of the Sellmeier formula as a function of the squared wavelength. -/
noncomputable def silicaSq (s : ℝ) : ℝ :=
  1 + 0.683740494 * s / (s - 0.00460352869) + 0.420323613 * s / (s - 0.0133968856) + 0.58502748 * s / (s - 64.4932732)

theorem silicaSq_anti {s t : ℝ} (hs : 0.0133968856 < s) (hst : s < t) (ht : t < 64.4932732) : silicaSq t < silicaSq s := by
  unfold silicaSq
  have h1 := sellmeier_term (A := 0.683740494) (B := 0.00460352869) (by norm_num) (by norm_num) hst (Or.inl (by norm_num at hs ⊢; linarith))
  have h2 := sellmeier_term (A := 0.420323613) (B := 0.0133968856) (by norm_num) (by norm_num) hst (Or.inl hs)
  have h3 := sellmeier_term (A := 0.58502748) (B := 64.4932732) (by norm_num) (by norm_num) hst (Or.inr ht)
  linarith

theorem silicaSq_one : 1 < silicaSq 42 := by unfold silicaSq; norm_num

/-- **C89.** Fused silica and PMGI are normally dispersive: their indices fall as the wavelength grows, fused silica between 0.12 and 6.4 microns, PMGI
everywhere. -/
theorem C89_dispersion (lam lam' : ℝ) (h0 : 0 < lam) (h : lam < lam') :
    (materialsAt lam').nPmgi < (materialsAt lam).nPmgi ∧
    (0.12 / 1000000 ≤ lam → lam' ≤ 6.4 / 1000000 → (materialsAt lam').nSub < (materialsAt lam).nSub) := by
  constructor
  · show 1.524 + 5.176e-03 / (lam' * 1000000) ^ 2 + 2.105e-4 / (lam' * 1000000) ^ 4 < 1.524 + 5.176e-03 / (lam * 1000000) ^ 2 + 2.105e-4 / (lam * 1000000) ^ 4
    have hl : 0 < lam * 1000000 := by positivity
    have hll : lam * 1000000 < lam' * 1000000 := by linarith
    have h2 : (5.176e-03 : ℝ) / (lam' * 1000000) ^ 2 < 5.176e-03 / (lam * 1000000) ^ 2 :=
      div_lt_div_of_pos_left (by norm_num) (by positivity) (pow_lt_pow_left₀ hll hl.le (by norm_num))
    have h4 : (2.105e-4 : ℝ) / (lam' * 1000000) ^ 4 < 2.105e-4 / (lam * 1000000) ^ 4 :=
      div_lt_div_of_pos_left (by norm_num) (by positivity) (pow_lt_pow_left₀ hll hl.le (by norm_num))
    linarith
  · intro hlo hhi
    show Real.sqrt (silicaSq ((lam' * 1000000) ^ 2)) < Real.sqrt (silicaSq ((lam * 1000000) ^ 2))
    have hl : 0.12 ≤ lam * 1000000 := by norm_num at hlo ⊢; linarith
    have hll : lam * 1000000 < lam' * 1000000 := by linarith
    have hu : lam' * 1000000 ≤ 6.4 := by norm_num at hhi ⊢; linarith
    generalize lam * 1000000 = u at *
    generalize lam' * 1000000 = v at *
    norm_num at hl hu
    have hv : v ^ 2 < 42 := by nlinarith
    have h42 := silicaSq_anti (s := v ^ 2) (t := 42) (by norm_num; nlinarith) hv (by norm_num)
    have h1 := silicaSq_one
    exact Real.sqrt_lt_sqrt (by linarith) (silicaSq_anti (by norm_num; nlinarith) (by nlinarith) (by norm_num; linarith))

theorem materials_ok {lam : ℝ} (hlo : 0.12 / 1000000 ≤ lam) (hhi : lam ≤ 6.4 / 1000000) : MaterialsOK (materialsAt lam) := by
  obtain ⟨h1, h2, h3, h4⟩ := C89_metals lam
  norm_num at h1 h2 h3 h4 hlo hhi
  have hl : 0 < lam := by linarith
  refine ⟨?_, ?_, ⟨by linarith, by linarith⟩, ⟨by linarith, by linarith⟩⟩
  · show 1 ≤ Real.sqrt (silicaSq ((lam * 1000000) ^ 2))
    rw [Real.one_le_sqrt]
    have hu : lam * 1000000 ≤ 32 / 5 := by linarith
    have hl : 3 / 25 ≤ lam * 1000000 := by linarith
    generalize lam * 1000000 = v at *
    have := silicaSq_anti (s := v ^ 2) (t := 42) (by norm_num; nlinarith) (by nlinarith) (by norm_num)
    linarith [silicaSq_one]
  · show 1 ≤ 1.524 + 5.176e-03 / (lam * 1000000) ^ 2 + 2.105e-4 / (lam * 1000000) ^ 4
    have : 0 ≤ (5.176e-03 : ℝ) / (lam * 1000000) ^ 2 := by positivity
    have : 0 ≤ (2.105e-4 : ℝ) / (lam * 1000000) ^ 4 := by positivity
    norm_num at *
    linarith

/-- **C89.** Fused silica obeys Sellmeier's equation with the published coefficients between 0.12 and 6.4 microns, and PMGI Cauchy's with
`1.524`, `5.176e-3` and `2.105e-4`, at the wavelength in microns. -/
theorem C89_formulas (lam um : ℝ) (hum : um = lam * 1000000) :
    (0.12 ≤ um → um ≤ 6.4 → 0 < (materialsAt lam).nSub ∧ (materialsAt lam).nSub ^ 2 - 1 =
      (Spec.silicaData.map fun c => ((c.1 : ℝ) / 10 ^ 11) * um ^ 2 / (um ^ 2 - (c.2 : ℝ) / 10 ^ 11)).sum) ∧
    (0 < um → 10000000 * ((materialsAt lam).nPmgi * um ^ 4) = 15240000 * um ^ 4 + 51760 * um ^ 2 + 2105) := by
  subst hum
  constructor
  · intro hlo hhi
    have ok := materials_ok (lam := lam) (by norm_num at hlo ⊢; linarith) (by norm_num at hhi ⊢; linarith)
    have h1 : (1 : ℝ) ≤ Real.sqrt (silicaSq ((lam * 1000000) ^ 2)) := ok.1
    have hpos : 0 ≤ silicaSq ((lam * 1000000) ^ 2) := by
      rw [Real.one_le_sqrt] at h1
      linarith
    refine ⟨lt_of_lt_of_le one_pos h1, ?_⟩
    show Real.sqrt (silicaSq ((lam * 1000000) ^ 2)) ^ 2 - 1 = _
    rw [Real.sq_sqrt hpos]
    unfold silicaSq Spec.silicaData
    simp only [List.map_cons, List.map_nil, List.sum_cons, List.sum_nil]
    norm_num
    ring
  · intro h
    show 10000000 * ((1.524 + 5.176e-03 / (lam * 1000000) ^ 2 + 2.105e-4 / (lam * 1000000) ^ 4) * (lam * 1000000) ^ 4) = _
    generalize lam * 1000000 = u at *
    have : u ≠ 0 := ne_of_gt h
    field_simp
    norm_num
    ring

/-- **C89.** With the tables of the package an occulter is physical at every wavelength between 0.12 and 6.4 microns, without any assumption on the
materials: each cell has transmission and reflection of modulus at most 1. -/
theorem C89_occulter {lam aoi : ℝ} {tTi tNi tPmgi : List ℝ} {d0 : ℝ} {pol : ℤ} (hlo : 0.12 / 1000000 ≤ lam) (hhi : lam ≤ 6.4 / 1000000)
    (h : OcculterArgs lam aoi tTi tNi tPmgi d0 pol)
    (ht : ∀ ii < tNi.length, 0 ≤ tTi.getD ii 0 ∧ 0 ≤ tNi.getD ii 0 ∧ 0 ≤ tPmgi.getD ii 0 ∧
      tTi.getD ii 0 + tNi.getD ii 0 + tPmgi.getD ii 0 ≤ d0)
    (flag : Bool) (sub : Substrate) (hs : sub = .FS ∨ sub = .FUSEDSILICA) :
    ∃ cells, calcComplexOcculter materialsAt lam aoi tTi tNi tPmgi d0 pol flag sub = .ok cells ∧ cells.length = tNi.length ∧
      ∀ p ∈ cells, ‖p.1‖ ≤ 1 ∧ ‖p.2‖ ≤ 1 :=
  C71_occulter_bounded materialsAt h (materials_ok hlo hhi) ht flag sub hs

/-- **C89.** With the tables of the package `gen_hlc_occulter` succeeds, at every wavelength between 0.12 and 6.4 microns, exactly when its arguments are
valid. -/
theorem C89_mask (S : ClampSpline) (R : Rotate) {lam : ℝ} (hlo : 0.12 / 1000000 ≤ lam) (hhi : lam ≤ 6.4 / 1000000) (scale : Bool) (s0 s1 : ℤ)
    (c : HlcCal) (d : HlcDesign) (xo yo : ℝ) :
    (∃ o, genHlcOcculter S R materialsAt lam scale s0 s1 c d xo yo = .ok o) ↔ HlcArgs lam scale s0 s1 c d :=
  C85_accepts (materials_ok hlo hhi)

/-! ### What an occulter cell is (C71) -/

theorem film_amplitudes {layers : List (ℂ × ℝ)} {ns theta lam : ℝ} (h : FilmArgs 1 layers ns theta lam) (hns : 1 ≤ ns)
    (hd : ∀ a ∈ layers, 0 ≤ a.2) (tm : Bool) : ∃ o, film (1 : ℝ) layers ns theta lam tm = .ok o ∧ FilmAmplitudes theta lam tm layers ns o.rr o.tt := by
  have hcos := h.cos_pos
  have hl := h.lam_pos
  have hpi := Real.pi_pos
  have hsc := Real.sin_sq_add_cos_sq theta
  have hpos : 0 < (2 * Real.pi * ns / lam) ^ 2 - (2 * Real.pi * Real.sin theta / lam) ^ 2 := by
    have : (2 * Real.pi * ns / lam) ^ 2 - (2 * Real.pi * Real.sin theta / lam) ^ 2 = (2 * Real.pi / lam) ^ 2 * (ns ^ 2 - Real.sin theta ^ 2) := by ring
    rw [this]
    refine mul_pos (by positivity) ?_
    nlinarith [pow_pos hcos 2]
  have hkx : kxOf 1 theta lam = 2 * Real.pi * Real.sin theta / lam := by unfold kxOf; ring
  set qs : ℝ := -Real.sqrt ((2 * Real.pi * ns / lam) ^ 2 - (2 * Real.pi * Real.sin theta / lam) ^ 2) with hqs
  have hneg : qs < 0 := by have := Real.sqrt_pos.2 hpos; linarith
  have hwave : NormalWave (2 * Real.pi * Real.sin theta / lam) lam ns qs := by
    have h2 : qs * qs = (2 * Real.pi * ns / lam) ^ 2 - (2 * Real.pi * Real.sin theta / lam) ^ 2 := by
      rw [hqs, neg_mul_neg, Real.mul_self_sqrt hpos.le]
    unfold NormalWave
    have : qs * qs + (2 * Real.pi * Real.sin theta / lam) * (2 * Real.pi * Real.sin theta / lam) = (2 * Real.pi * ns / lam) * (2 * Real.pi * ns / lam) := by
      rw [h2]; ring
    exact_mod_cast this
  obtain ⟨o, t, ho, hsc, -, -, -, htt⟩ := C72_scattering_partial h hd tm (qs : ℂ) (by rw [hkx]; exact hwave) (Or.inl (by simpa using hneg))
  rw [hkx] at hsc
  rw [mul_one, Complex.ofReal_one] at hsc htt
  exact ⟨o, ho, qs, t, hneg, hwave, hsc, htt⟩

/-- **C71.** What a cell is.  Its coefficients are the amplitudes (C72) of the stack vacuum gap - PMGI - nickel - titanium - substrate, the gap being what
the layers leave of the reference height: those of TE light, of TM light or their means according to `pol`, conjugated unless `flagOPD`. -/
theorem C71_stack (mat : ℝ → Materials) {lam aoi : ℝ} {tTi tNi tPmgi : List ℝ} {d0 : ℝ} {pol : ℤ}
    (h : OcculterArgs lam aoi tTi tNi tPmgi d0 pol) (hm : MaterialsOK (mat lam))
    (ht : ∀ ii < tNi.length, 0 ≤ tTi.getD ii 0 ∧ 0 ≤ tNi.getD ii 0 ∧ 0 ≤ tPmgi.getD ii 0 ∧
      tTi.getD ii 0 + tNi.getD ii 0 + tPmgi.getD ii 0 ≤ d0)
    (flag : Bool) (sub : Substrate) (cells : List (ℂ × ℂ)) (hr : calcComplexOcculter mat lam aoi tTi tNi tPmgi d0 pol flag sub = .ok cells)
    (ii : ℕ) (hii : ii < cells.length) (gap : ℝ) (hgap : gap + tPmgi.getD ii 0 + tNi.getD ii 0 + tTi.getD ii 0 = d0)
    (layers : List (ℂ × ℝ)) (hl : layers = [(1, gap), (((mat lam).nPmgi : ℂ), tPmgi.getD ii 0),
      ((mat lam).nNi - Complex.I * (mat lam).kNi, tNi.getD ii 0), ((mat lam).nTi - Complex.I * (mat lam).kTi, tTi.getD ii 0)]) :
    ∃ r t r' t' : ℂ, FilmAmplitudes (aoi * (Real.pi / 180)) lam false layers (mat lam).nSub r t ∧
      FilmAmplitudes (aoi * (Real.pi / 180)) lam true layers (mat lam).nSub r' t' ∧ ∃ T R : ℂ,
      cells[ii] = (if flag then (T, R) else ((starRingEnd ℂ) T, (starRingEnd ℂ) R)) ∧
      (pol = 0 → T = t ∧ R = r) ∧ (pol = 1 → T = t' ∧ R = r') ∧ (pol = 2 → T = (t + t') / 2 ∧ R = (r + r') / 2) := by
  obtain ⟨hlen, hcell⟩ := C71_occulter_cellwise mat h flag sub cells hr
  have h1 := hcell ii hii
  have hs : sub = .FS ∨ sub = .FUSEDSILICA := by
    unfold calcComplexOcculter at hr
    rw [if_neg (not_le.2 h.lam_pos), if_neg (not_lt.2 h.aoi_nonneg), if_neg (not_le.2 h.aoi_lt),
      if_neg (by simp [h.len.1, h.len.2]), if_neg (not_le.2 h.d0_pos), if_neg (not_not.2 h.pol)] at hr
    cases sub <;> simp_all
  have ha1 : OcculterArgs lam aoi [tTi.getD ii 0] [tNi.getD ii 0] [tPmgi.getD ii 0] d0 pol :=
    ⟨h.lam_pos, h.aoi_nonneg, h.aoi_lt, ⟨rfl, rfl⟩, h.d0_pos, h.pol⟩
  rw [occulter_loop mat ha1 flag sub hs] at h1
  simp only [List.length_cons, List.length_nil, zero_add, List.range_one, List.mapM_cons, List.mapM_nil, List.getD_cons_zero] at h1
  obtain ⟨t1, t2, t3, t4⟩ := ht ii (hlen ▸ hii)
  obtain ⟨g0, g1⟩ := h.theta
  have ha := occulter_args hm (aoi * (Real.pi / 180)) lam d0 (tTi.getD ii 0) (tNi.getD ii 0) (tPmgi.getD ii 0) g0 g1 h.lam_pos
  have hlay : layers = occulterLayers (mat lam) d0 (tTi.getD ii 0) (tNi.getD ii 0) (tPmgi.getD ii 0) := by
    rw [hl, occulterLayers, show d0 - tPmgi.getD ii 0 - tNi.getD ii 0 - tTi.getD ii 0 = gap by linarith]
  rw [← hlay] at ha
  have hd : ∀ a ∈ layers, 0 ≤ a.2 := by
    intro a ha
    simp only [hl, List.mem_cons, List.not_mem_nil, or_false] at ha
    rcases ha with rfl | rfl | rfl | rfl
    · show 0 ≤ gap; linarith
    · exact t3
    · exact t2
    · exact t1
  obtain ⟨o0, e0, f0⟩ := film_amplitudes ha hm.sub hd false
  obtain ⟨o1, e1, f1⟩ := film_amplitudes ha hm.sub hd true
  refine ⟨o0.rr, o0.tt, o1.rr, o1.tt, f0, f1, ?_⟩
  rw [hlay] at e0 e1
  rw [occulterCell_eq _ _ _ _ _ _ _ pol flag o0 o1 e0 e1 h.pol] at h1
  have h2 := Except.ok.inj h1
  simp only [List.cons.injEq, and_true] at h2
  rw [← h2]
  rcases h.pol with rfl | rfl | rfl
  · exact ⟨_, _, rfl, fun _ => ⟨rfl, rfl⟩, fun h => absurd h (by decide), fun h => absurd h (by decide)⟩
  · exact ⟨_, _, rfl, fun h => absurd h (by decide), fun _ => ⟨rfl, rfl⟩, fun h => absurd h (by decide)⟩
  · exact ⟨_, _, rfl, fun h => absurd h (by decide), fun h => absurd h (by decide), fun _ => ⟨rfl, rfl⟩⟩

/-- The amplitudes of a stack are determined by the matching problem. -/
theorem C71_amplitudes_unique {layers : List (ℂ × ℝ)} {ns theta lam : ℝ} (h : FilmArgs 1 layers ns theta lam)
    (hd : ∀ a ∈ layers, 0 ≤ a.2) (tm : Bool) (r t r' t' : ℂ) (h1 : FilmAmplitudes theta lam tm layers ns r t)
    (h2 : FilmAmplitudes theta lam tm layers ns r' t') : r' = r ∧ t' = t := by
  have key : ∀ r t, FilmAmplitudes theta lam tm layers ns r t → ∃ o, film (1 : ℝ) layers ns theta lam tm = .ok o ∧ r = o.rr ∧ t = o.tt := by
    rintro r t ⟨qs, t0, hneg, hw, hsc, ht⟩
    have hkx : kxOf 1 theta lam = 2 * Real.pi * Real.sin theta / lam := by unfold kxOf; ring
    obtain ⟨o, t1, ho, -, hun, -, -, htt⟩ := C72_scattering_partial h hd tm (qs : ℂ) (by rw [hkx]; exact hw) (Or.inl (by simpa using hneg))
    rw [hkx] at hun
    rw [mul_one, Complex.ofReal_one] at hun htt
    obtain ⟨hr, h0⟩ := hun r t0 hsc
    exact ⟨o, ho, hr, by rw [ht, htt, h0]⟩
  obtain ⟨o, ho, e1, e2⟩ := key r t h1
  obtain ⟨o', ho', e1', e2'⟩ := key r' t' h2
  have : o' = o := by rw [ho] at ho'; exact (Except.ok.inj ho').symm
  rw [e1, e2, e1', e2', this]; exact ⟨rfl, rfl⟩

/-! ### The hypotheses are met -/

/-- The wavelength of the instrument, 575 nm, is in range; a thin layer of metal and half a micron of PMGI fit below a reference height of four
wavelengths. -/
example : (0.12 / 1000000 : ℝ) ≤ 575 / 1000000000 ∧ (575 / 1000000000 : ℝ) ≤ 6.4 / 1000000 ∧
    OcculterArgs (575 / 1000000000) 5.5 [3 / 1000000000] [105 / 1000000000] [500 / 1000000000] (4 * 575 / 1000000000) 2 :=
  ⟨by norm_num, by norm_num, ⟨by norm_num, by norm_num, by norm_num, ⟨rfl, rfl⟩, by norm_num, by norm_num⟩⟩

/-- A row of each table, and neighbouring rows. -/
example : ((549 : ℚ), (2.54 : ℚ), (3.43 : ℚ)) ∈ titaniumTable ∧ ((539.1 : ℚ), (1.75 : ℚ), (3.19 : ℚ)) ∈ nickelTable := by decide +kernel

example : Neighbours titaniumTable (397, 2.08, 2.95) (413, 2.14, 2.98) := ⟨[], _, rfl⟩

/-- The formula gives the catalogue index of fused silica at the sodium line to four digits: 1.4584. -/
example : 1.4584 < (materialsAt (589.3 / 1000000000)).nSub ∧ (materialsAt (589.3 / 1000000000)).nSub < 1.4585 := by
  show 1.4584 < Real.sqrt _ ∧ Real.sqrt _ < 1.4585
  constructor
  · rw [Real.lt_sqrt (by norm_num)]; norm_num
  · rw [Real.sqrt_lt' (by norm_num)]; norm_num

end Coralign.Props
