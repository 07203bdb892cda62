import Verif.Props.GainMap
import Mathlib.Algebra.Order.BigOperators.Group.Finset

/-!
# The gain map in closed form: a blend of two neighbouring slopes
-/

namespace Coralign.Props

open Coralign

section
variable {K : Type} [Field K] [LinearOrder K] [IsStrictOrderedRing K]

/-- Specification: the average slope of an actuator between its reference commands number `k` and `k + 1`. -/
def secant (v h : List K) (k : ℕ) : K := (h.getD (k + 1) 0 - h.getD k 0) / (v.getD (k + 1) 0 - v.getD k 0)

/-- Specification: the command half way between the reference commands number `k` and `k + 1`. -/
def midCmd (v : List K) (k : ℕ) : K := (v.getD (k + 1) 0 + v.getD k 0) / 2

theorem midCmd_lt {v : List K} (h : v.Pairwise (· < ·)) {a b : ℕ} (hab : a < b) (hb : b + 1 < v.length) :
    midCmd v a < midCmd v b := by
  have h1 := pairwise_getD h hab (by omega : b < v.length)
  have h2 := pairwise_getD h (show a + 1 < b + 1 by omega) hb
  unfold midCmd
  linarith

/-- The mid-points as `diffAndMean` lists them. -/
def midList (v : List K) : List K := (List.range (v.length - 1)).map (midCmd v)

theorem midList_get {v : List K} {k : ℕ} (hk : k + 1 < v.length) : (midList v).getD k 0 = midCmd v k := by
  have : k < v.length - 1 := by omega
  simp [midList, List.getD_eq_getElem?_getD, List.getElem?_map, List.getElem?_range this]

theorem midList_length (v : List K) : (midList v).length = v.length - 1 := by simp [midList]

theorem searchSorted_below (x : List K) (q : K) (k : ℕ) (hk : k < searchSorted x q) : x.getD k 0 < q := by
  unfold searchSorted at hk
  induction x generalizing k with
  | nil => simp at hk
  | cons a x ih =>
    rw [List.takeWhile_cons] at hk
    split_ifs at hk with ha
    · cases k with
      | zero => simpa using ha
      | succ k => simpa using ih k (by simpa using hk)
    · simp at hk

theorem searchSorted_above (x : List K) (q : K) (hx : searchSorted x q < x.length) : q ≤ x.getD (searchSorted x q) 0 := by
  unfold searchSorted at hx ⊢
  induction x with
  | nil => simp at hx
  | cons a x ih =>
    rw [List.takeWhile_cons] at hx ⊢
    split_ifs at hx ⊢ with ha
    · simpa using ih (by simpa using hx)
    · simpa using ha

theorem searchSorted_le (x : List K) (q : K) : searchSorted x q ≤ x.length := by
  unfold searchSorted
  exact (List.takeWhile_sublist _).length_le

theorem searchSorted_map (x : List K) (q : K) (f : K → K) (hf : StrictMono f) : searchSorted (x.map f) (f q) = searchSorted x q := by
  unfold searchSorted
  induction x with
  | nil => rfl
  | cons a x ih =>
    simp only [List.map_cons, List.takeWhile_cons, hf.lt_iff_lt]
    split_ifs
    · simp only [List.length_cons]
      omega
    · rfl

/-- The lower of the two slopes that are blended at command `q`. -/
def blendAt (v : List K) (q : K) : ℕ := min (max (searchSorted (midList v) q) 1) ((midList v).length - 1) - 1

/-- The weight of the upper slope. -/
def blendWeight (v : List K) (q : K) : K :=
  (q - midCmd v (blendAt v q)) / (midCmd v (blendAt v q + 1) - midCmd v (blendAt v q))

theorem blendAt_lt {v : List K} (h3 : 3 ≤ v.length) (q : K) : blendAt v q + 2 < v.length := by
  have := midList_length v
  unfold blendAt
  omega

theorem midCmd_first {v : List K} (q : K) (h : v.Pairwise (· < ·)) (h3 : 3 ≤ v.length)
    (hq : midCmd v 0 ≤ q) : midCmd v (blendAt v q) ≤ q := by
  have hl := midList_length v
  rcases Nat.eq_zero_or_pos (blendAt v q) with h0 | h0
  · rw [h0]; exact hq
  · have hk := blendAt_lt h3 q
    have : blendAt v q < searchSorted (midList v) q := by unfold blendAt at h0 ⊢; omega
    have := searchSorted_below _ _ _ this
    rw [midList_get (by omega)] at this
    exact this.le

theorem midCmd_last {v : List K} (q : K) (h : v.Pairwise (· < ·)) (h3 : 3 ≤ v.length)
    (hq : q ≤ midCmd v (v.length - 2)) : q ≤ midCmd v (blendAt v q + 1) := by
  have hl := midList_length v
  have hk := blendAt_lt h3 q
  by_cases hs : searchSorted (midList v) q < (midList v).length
  · have ha := searchSorted_above _ _ hs
    rw [midList_get (by omega)] at ha
    refine ha.trans ?_
    have hle : searchSorted (midList v) q ≤ blendAt v q + 1 := by unfold blendAt; omega
    rcases hle.lt_or_eq with hlt | heq
    · exact (midCmd_lt h hlt (by omega)).le
    · rw [heq]
  · have : blendAt v q + 1 = v.length - 2 := by unfold blendAt; omega
    rw [this]; exact hq

/-- Below the first mid-point the first two slopes are blended, above the last one the last two. -/
theorem blendAt_low {v : List K} (q : K) (h : v.Pairwise (· < ·)) (h3 : 3 ≤ v.length) (hq : q < midCmd v 0) : blendAt v q = 0 := by
  have hl := midList_length v
  have : searchSorted (midList v) q = 0 := by
    by_contra hc
    have := searchSorted_below (midList v) q 0 (by omega)
    rw [midList_get (by omega)] at this
    linarith
  unfold blendAt
  omega

theorem blendAt_high {v : List K} (q : K) (h : v.Pairwise (· < ·)) (h3 : 3 ≤ v.length) (hq : midCmd v (v.length - 2) < q) :
    blendAt v q + 3 = v.length := by
  have hl := midList_length v
  have : ¬ searchSorted (midList v) q < (midList v).length := by
    intro hs
    have ha := searchSorted_above _ _ hs
    rw [midList_get (by omega)] at ha
    have hle : searchSorted (midList v) q ≤ v.length - 2 := by omega
    rcases hle.lt_or_eq with hlt | heq
    · have := midCmd_lt h hlt (by omega); linarith
    · rw [heq] at ha; linarith
  unfold blendAt
  omega

theorem blendWeight_unit {v : List K} (q : K) (h : v.Pairwise (· < ·)) (h3 : 3 ≤ v.length)
    (h0 : midCmd v 0 ≤ q) (h1 : q ≤ midCmd v (v.length - 2)) : 0 ≤ blendWeight v q ∧ blendWeight v q ≤ 1 := by
  have hk := blendAt_lt h3 q
  have hp : 0 < midCmd v (blendAt v q + 1) - midCmd v (blendAt v q) := by
    have := midCmd_lt h (Nat.lt_succ_self (blendAt v q)) (by omega); linarith
  have ha := midCmd_first q h h3 h0
  have hb := midCmd_last q h h3 h1
  unfold blendWeight
  exact ⟨div_nonneg (by linarith) hp.le, (div_le_one hp).mpr (by linarith)⟩

/-- For a command within the reference commands the weight is never below -1 nor above 2. -/
theorem blendWeight_range {v : List K} (q : K) (h : v.Pairwise (· < ·)) (h3 : 3 ≤ v.length)
    (h0 : v.getD 0 0 ≤ q) (h1 : q ≤ v.getD (v.length - 1) 0) : -1 < blendWeight v q ∧ blendWeight v q < 2 := by
  have hk := blendAt_lt h3 q
  have hp : 0 < midCmd v (blendAt v q + 1) - midCmd v (blendAt v q) := by
    have := midCmd_lt h (Nat.lt_succ_self (blendAt v q)) (by omega); linarith
  rcases lt_or_ge q (midCmd v 0) with hlo | hlo
  · have e := blendAt_low q h h3 hlo
    have p1 := pairwise_getD h (show 0 < 1 by omega) (by omega : 1 < v.length)
    have p2 := pairwise_getD h (show 1 < 2 by omega) (by omega : 2 < v.length)
    unfold blendWeight
    rw [e] at hp ⊢
    rw [lt_div_iff₀ hp, div_lt_iff₀ hp]
    unfold midCmd at *
    simp only [zero_add] at *
    norm_num at *
    constructor <;> linarith
  rcases lt_or_ge (midCmd v (v.length - 2)) q with hhi | hhi
  · have e := blendAt_high q h h3 hhi
    obtain ⟨k, hk'⟩ : ∃ k, blendAt v q = k := ⟨_, rfl⟩
    rw [hk'] at e
    have p1 := pairwise_getD h (show k < k + 1 by omega) (by omega : k + 1 < v.length)
    have p2 := pairwise_getD h (show k + 1 < k + 2 by omega) (by omega : k + 2 < v.length)
    have e1 : v.length - 1 = k + 2 := by omega
    have e2 : v.length - 2 = k + 1 := by omega
    rw [e1] at h1
    rw [e2] at hhi
    unfold blendWeight
    rw [hk'] at hp ⊢
    rw [lt_div_iff₀ hp, div_lt_iff₀ hp]
    unfold midCmd at *
    have e3 : k + 1 + 1 = k + 2 := rfl
    rw [e3] at *
    constructor <;> linarith
  · have := blendWeight_unit q h h3 hlo hhi
    constructor <;> linarith

/-- What `compute_gainmap` computes: for each actuator a blend of two neighbouring slopes, chosen and weighted by the command alone. -/
theorem gain_form (n : ℕ) (cube : Arr3 K) (v : List K) (h : GainData cube v n) (c : Fin n → Fin n → K) :
    ∃ o : Fin n → Fin n → K, gainMap ⟨n, n, c⟩ cube v = .ok ⟨n, n, o⟩ ∧
      ∀ i j : Fin n, ∀ hh, cube.column i j = .ok hh → hh.length = v.length ∧
        o i j = (1 - blendWeight v (c i j)) * secant v hh (blendAt v (c i j)) +
          blendWeight v (c i j) * secant v hh (blendAt v (c i j) + 1) := by
  obtain ⟨dd, m, g, hdm, hg, hgr, hgc, hmi, hml, o, ho, hall⟩ := gainMap_eq n cube v h c
  refine ⟨o, ho, fun i j hh hcol => ?_⟩
  obtain ⟨gg, h1, hgl, h2⟩ := hall i j
  have h3 := h.three
  have hne : v ≠ [] := by rintro rfl; simp at h3
  obtain ⟨g', hg', _, _, _, hint⟩ := C30_gain_integrates cube v h.inc hne h.slices.symm
  obtain rfl := Except.ok.inj (hg.symm.trans hg')
  obtain ⟨hh', gg', e1, e2, e3, _, e5, _⟩ := hint i j (by rw [h.rows]; exact i.isLt) (by rw [h.cols]; exact j.isLt)
  obtain rfl := Except.ok.inj (h1.symm.trans e2)
  obtain rfl := Except.ok.inj (e1.symm.trans hcol)
  refine ⟨e3, ?_⟩
  have hm' : m = midList v := by
    rw [diffAndMean_eq v h.inc hne] at hdm
    exact (Prod.mk.inj (Except.ok.inj hdm)).2.symm
  subst hm'
  obtain ⟨hi, hi1, hi2, hi3, e⟩ := linInterp_eq (midList v) gg (c i j) hmi (by omega) (by omega)
  rw [e] at h2
  have hb : hi = blendAt v (c i j) + 1 := by unfold blendAt; omega
  have hlt := blendAt_lt h3 (c i j)
  generalize hk : blendAt v (c i j) = k at *
  rw [← Except.ok.inj h2, hb, Nat.add_sub_cancel, midList_get (by omega), midList_get (by omega)]
  have s : ∀ l, l + 1 < v.length → gg.getD l 0 = secant v hh' l := by
    intro l hl
    have hpos := pairwise_getD h.inc (Nat.lt_succ_self l) hl
    rw [Nat.succ_eq_add_one] at hpos
    unfold secant
    rw [eq_div_iff (by linarith)]
    exact e5 l hl
  rw [s k (by omega), s (k + 1) (by omega)]
  have hp := midCmd_lt h.inc (Nat.lt_succ_self k) (by omega : k + 1 + 1 < v.length)
  rw [Nat.succ_eq_add_one] at hp
  have hne' : midCmd v (k + 1) - midCmd v k ≠ 0 := by linarith
  unfold blendWeight
  rw [hk]
  field_simp
  ring

end

end Coralign.Props
