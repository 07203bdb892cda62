import Verif.Model.CoarseOnceDouble
import Verif.Props.CoarseDouble
import Verif.Props.CoarsePhoto
import Verif.Props.QuadDouble
import Verif.Props.CenterDouble

/-!
# Properties C52 and C134 with every operation in double precision
-/

namespace Coralign.Props

open Coralign Coralign.Spec Finset

/-- Specification: an image of photon counts, with at most `2 ^ 53` counts in all. -/
structure CountImage (img : Arr2 ℝ) : Prop where
  whole : ∀ i j, ∃ n : ℕ, img.val i j = n
  few : ∑ i, ∑ j, img.val i j ≤ 2 ^ 53

/-- Specification: the beam size is a double below `2 ^ 27`, and half of it does not coincide with the rounded distance of a pixel that lies
outside the circle. -/
structure ClearBeam (nBeam : ℝ) : Prop where
  stored : double nBeam = nBeam
  clear : ClearRadius (nBeam / 2)
  small : nBeam < 2 ^ 27

/-- Every number with at most 25 significant bits, such as every whole or half number up to ten millions, is a clear beam size. -/
theorem C52_clear_beam (m k : ℕ) (hm : m ≤ 2 ^ 25) (hk : k < 900) : ClearBeam ((m : ℝ) / 2 ^ k) := by
  refine ⟨(C109_short_radius m k hm (by omega)).1, ?_, ?_⟩
  · rw [div_div, ← pow_succ]
    exact C109_short_radius m (k + 1) hm (by omega)
  · have h1 : (m : ℝ) / 2 ^ k ≤ m := div_le_self (Nat.cast_nonneg m) (one_le_pow₀ (by norm_num))
    have h2 : (m : ℝ) ≤ 2 ^ 25 := by exact_mod_cast hm
    exact lt_of_le_of_lt (h1.trans h2) (by norm_num)

theorem clear_half {nBeam : ℝ} (h : ClearBeam nBeam) : nBeam / 2 < 2 ^ 26 := by
  have := h.small
  norm_num at this ⊢
  linarith

/-- The pixels taken for the beam are the right ones. -/
theorem beamRho_iff (x y : ℤ) (r : ℝ) (hr : ClearRadius r) (h26 : r < 2 ^ 26) :
    beamRhoD x y ≤ r ↔ Real.sqrt ((x : ℝ) ^ 2 + (y : ℝ) ^ 2) ≤ r := by
  unfold beamRhoD
  have hq : (0 : ℤ) ≤ x ^ 2 + y ^ 2 := by positivity
  have e : ((x ^ 2 + y ^ 2 : ℤ) : ℝ) = (x : ℝ) ^ 2 + (y : ℝ) ^ 2 := by push_cast; rfl
  by_cases hs : x ^ 2 + y ^ 2 ≤ 2 ^ 53
  · rw [double_int _ (by rw [abs_of_nonneg hq]; exact hs), e]
    constructor
    · intro h
      by_contra hc
      push Not at hc
      have := double_mono hc.le
      rw [hr.1] at this
      exact absurd (hr.2 x y (le_antisymm this h)) (not_le.mpr hc)
    · intro h
      have := double_mono h
      rwa [hr.1] at this
  · have hbig : ((2 ^ 53 : ℤ) : ℝ) ≤ ((x ^ 2 + y ^ 2 : ℤ) : ℝ) := by exact_mod_cast (not_le.mp hs).le
    have h26' : ((2 ^ 26 : ℤ) : ℝ) = 2 ^ 26 := by norm_num
    have root : ∀ z : ℝ, ((2 ^ 53 : ℤ) : ℝ) ≤ z → (2 : ℝ) ^ 26 ≤ Real.sqrt z := by
      intro z hz
      refine Real.le_sqrt_of_sq_le (le_trans ?_ hz)
      norm_num
    refine iff_of_false (not_le.mpr (lt_of_lt_of_le h26 ?_)) (not_le.mpr (lt_of_lt_of_le h26 ?_))
    · have h1 := double_mono hbig
      rw [double_int (2 ^ 53) (by norm_num)] at h1
      have h2 := double_mono (root _ h1)
      rwa [← h26', double_int (2 ^ 26) (by norm_num), h26'] at h2
    · exact root _ (by rw [← e]; exact hbig)

/-- Sums of counts are exact in any order. -/
theorem sumTree_counts (t : SumTree) (h : ∀ x ∈ t.leaves, ∃ n : ℕ, x = n) (hs : t.leaves.sum ≤ 2 ^ 53) :
    t.valueD = t.leaves.sum ∧ ∃ n : ℕ, t.leaves.sum = n := by
  induction t with
  | leaf x =>
    obtain ⟨n, hn⟩ := h x (by simp [SumTree.leaves])
    exact ⟨by simp [SumTree.leaves, SumTree.valueD], n, by simp [SumTree.leaves, hn]⟩
  | node l r ihl ihr =>
    simp only [SumTree.leaves, List.mem_append, List.sum_append] at h hs ⊢
    have nn : ∀ t : SumTree, (∀ x ∈ t.leaves, ∃ n : ℕ, x = n) → 0 ≤ t.leaves.sum := by
      intro t ht
      refine List.sum_nonneg fun x hx => ?_
      obtain ⟨n, rfl⟩ := ht x hx
      exact Nat.cast_nonneg n
    have hl := fun x hx => h x (Or.inl hx)
    have hr := fun x hx => h x (Or.inr hx)
    have nl := nn l hl
    have nr := nn r hr
    obtain ⟨e1, n1, h1⟩ := ihl hl (by linarith)
    obtain ⟨e2, n2, h2⟩ := ihr hr (by linarith)
    have e : l.leaves.sum + r.leaves.sum = ((n1 + n2 : ℕ) : ℝ) := by rw [h1, h2]; push_cast; rfl
    refine ⟨?_, n1 + n2, e⟩
    simp only [SumTree.valueD]
    rw [e1, e2, e, double_nat]
    rw [e] at hs
    exact_mod_cast hs

theorem rounded_counts (S : List ℝ → ℝ) (depth : ℕ → ℕ) (hS : RoundedSum depth S) (l : List ℝ) (h : ∀ x ∈ l, ∃ n : ℕ, x = n)
    (hs : l.sum ≤ 2 ^ 53) : S l = l.sum := by
  by_cases hl : l = []
  · rw [hl, hS.1]; rfl
  · obtain ⟨t, hp, -, e⟩ := hS.2 l hl
    rw [e, (sumTree_counts t (fun x hx => h x (hp.mem_iff.mp hx)) (by rw [hp.sum_eq]; exact hs)).1, hp.sum_eq]

theorem overlapD_eq (S : List ℝ → ℝ) (depth : ℕ → ℕ) (hS : RoundedSum depth S) (img : Arr2 ℝ) (hi : CountImage img) (nBeam : ℝ)
    (hb : ClearBeam nBeam) (x y : ℤ) : overlapAtD S img nBeam x y = overlapAt img nBeam x y := by
  classical
  unfold overlapAtD overlapAt
  rw [if_pos (by omega), if_pos (by omega), if_pos (by omega), if_pos (by omega)]
  have hr := hb.clear
  have h26 := clear_half hb
  have hle : ∀ l : List (Fin img.nr × Fin img.nc), ∀ q : Fin img.nr × Fin img.nc → Bool,
      ((l.filter q).map fun p => img.val p.1 p.2).sum ≤ (l.map fun p => img.val p.1 p.2).sum := by
    intro l q
    induction l with
    | nil => simp
    | cons p l ih =>
      obtain ⟨n, hn⟩ := hi.whole p.1 p.2
      have : 0 ≤ img.val p.1 p.2 := by rw [hn]; exact Nat.cast_nonneg n
      rw [List.filter_cons]
      split <;> simp only [List.map_cons, List.sum_cons] <;> linarith
  rw [rounded_counts S depth hS _ (by
      intro v hv
      obtain ⟨p, -, rfl⟩ := List.mem_map.mp hv
      exact hi.whole _ _) ((hle _ _).trans (by rw [all_list]; exact hi.few))]
  have hfs : ∀ l : List (Fin img.nr × Fin img.nc), ∀ q : Fin img.nr × Fin img.nc → Prop, [DecidablePred q] →
      ((l.filter fun p => q p).map fun p => img.val p.1 p.2).sum = (l.map fun p => if q p then img.val p.1 p.2 else 0).sum := by
    intro l q _
    induction l with
    | nil => simp
    | cons p l ih =>
      rw [List.filter_cons]
      by_cases hq : q p
      · simp [hq, ih]
      · simp [hq, ih]
  rw [hfs, all_list]
  refine sum_congr rfl fun i _ => sum_congr rfl fun j _ => ?_
  rw [hr.1]
  have := beamRho_iff (coordOf img.nc j - x) (coordOf img.nr i - y) (nBeam / 2) hr h26
  by_cases hh : beamRhoD (coordOf img.nc j - x) (coordOf img.nr i - y) ≤ nBeam / 2
  · rw [if_pos hh, if_pos (this.mp hh)]
  · rw [if_neg hh, if_neg (fun h => hh (this.mpr h))]

/-- **C52 in double precision.** For images of counts, such as masks, and a beam size whose circle passes clear of pixels, one round of the search
computed in double precision is exact: the same estimates and the same overlap matrix, in whatever order numpy adds. -/
theorem C52_double (S : List ℝ → ℝ) (depth : ℕ → ℕ) (hS : RoundedSum depth S) (img : Arr2 ℝ) (hi : CountImage img) (nBeam : ℝ)
    (hb : ClearBeam nBeam) (xs ys radius step : ℤ) :
    coarseOnceD S img nBeam xs ys radius step = coarseOnce img nBeam xs ys radius step := by
  unfold coarseOnceD coarseOnce
  simp only [overlapD_eq S depth hS img hi nBeam hb]

theorem loopDD_eq (S : List ℝ → ℝ) (depth : ℕ → ℕ) (hS : RoundedSum depth S) (img : Arr2 ℝ) (hi : CountImage img) (nBeam shrink : ℝ)
    (hb : ClearBeam nBeam) (fuel : ℕ) : ∀ est xs ys radius step,
      coarseLoopDD S img nBeam shrink fuel est xs ys radius step = coarseLoopD img nBeam shrink fuel est xs ys radius step := by
  induction fuel with
  | zero => intros; rfl
  | succ fuel ih =>
    intro est xs ys radius step
    unfold coarseLoopDD coarseLoopD
    rw [C52_double S depth hS img hi nBeam hb]
    simp only [ih]
    rfl

theorem locateDD_eq (S : List ℝ → ℝ) (depth : ℕ → ℕ) (hS : RoundedSum depth S) (img : Arr2 ℝ) (hi : CountImage img) (nBeam shrink : ℝ)
    (hb : ClearBeam nBeam) (fuel : ℕ) : coarselyLocateDD S fuel img nBeam shrink = coarselyLocateD fuel img nBeam shrink := by
  unfold coarselyLocateDD coarselyLocateD
  simp only [loopDD_eq S depth hS img hi nBeam shrink hb]

/-- **C134, all in double precision.** For images of counts in error by less than half a bright pixel in all, the search returns the centre of
the pupil exactly, with every operation rounded and in whatever order numpy adds. -/
theorem C134_all_double (S : List ℝ → ℝ) (depth : ℕ → ℕ) (hS : RoundedSum depth S) (img pure : Arr2 ℝ) (hcount : CountImage img)
    (diam nBeam shrink c : ℝ) (hdiam : 0 < diam) (hb : 0 < nBeam) (hclear : ClearBeam nBeam) (hd : double shrink = shrink) (hs : 1 < shrink)
    (hc : 0 < c) (a b : ℤ) (hn : 2 ≤ img.nr ∨ 2 ≤ img.nc) (h : IdealPupil pure diam c a b) (hi : AlmostPicture img pure c)
    (hsz : ⌊diam / 2⌋ = ⌊nBeam / 2⌋) :
    ∃ steps, ∀ fuel, (max 1 ⌊double (nBeam / shrink)⌋).toNat < fuel →
      coarselyLocateDD S fuel img nBeam shrink = some (.ok ((a, b), steps)) := by
  obtain ⟨steps, hst⟩ := C134_double img pure diam nBeam shrink c hdiam hb (hclear.small.le.trans (by norm_num)) hclear.stored hd hs hc a b hn h hi hsz
  exact ⟨steps, fun fuel hf => by rw [locateDD_eq S depth hS img hcount nBeam shrink hclear]; exact hst fuel hf⟩

/-- A mask is an image of counts. -/
theorem bits_count (m : Arr2 Bool) (h : m.nr * m.nc ≤ 2 ^ 53) : CountImage m.bits := by
  have hv : ∀ i j, m.bits.val i j = if m.val i j = true then (1 : ℝ) else 0 := fun i j => rfl
  refine ⟨fun i j => ?_, ?_⟩
  · rw [hv]
    split
    · exact ⟨1, by norm_num⟩
    · exact ⟨0, by norm_num⟩
  · have h1 : ∑ i, ∑ j, m.bits.val i j ≤ ∑ _i : Fin m.nr, ∑ _j : Fin m.nc, (1 : ℝ) := by
      refine sum_le_sum fun i _ => sum_le_sum fun j _ => ?_
      rw [hv]
      split <;> norm_num
    refine h1.trans ?_
    simp only [sum_const, card_univ, Fintype.card_fin, nsmul_eq_mul, mul_one]
    exact_mod_cast h

/-- **C134, all in double precision.** The search of the mask that `ampthresh` finds in a noisy photograph of a disc. -/
theorem C134_photo_double (S : List ℝ → ℝ) (depth : ℕ → ℕ) (hS : RoundedSum depth S) (amp : Arr2 ℝ) (hpix : amp.nr * amp.nc ≤ 2 ^ 53)
    (diam dim bright ε : ℝ) (a b : ℤ) (h : DiscPhoto amp diam dim bright ε a b) (hdiam : 0 < diam) (nBin : ℤ)
    (hn : 3 ≤ nBin) (hlt : dim < bright) (hε : 2 * (nBin + 2) * ε ≤ bright - dim) (hsz : 2 ≤ amp.nr ∨ 2 ≤ amp.nc) (d shrink : ℝ) (hd : 0 < d)
    (hclear : ClearBeam d) (hds : double shrink = shrink) (hs : 1 < shrink) (hsame : ⌊diam / 2⌋ = ⌊d / 2⌋) :
    ∃ m steps, ampthresh amp nBin = .ok m ∧ ∀ fuel, (max 1 ⌊double (d / shrink)⌋).toNat < fuel →
      coarselyLocateDD S fuel m.bits d shrink = some (.ok ((a, b), steps)) := by
  obtain ⟨m, hm, hr, hc, hid⟩ := photo_mask amp diam dim bright ε a b h nBin hn hlt hε
  obtain ⟨steps, hst⟩ := C134_all_double S depth hS m.bits m.bits (bits_count m (by rw [hr, hc]; exact hpix)) diam d shrink 1 hdiam hd hclear hds hs
    one_pos a b (by show 2 ≤ m.nr ∨ 2 ≤ m.nc; omega) hid ⟨rfl, rfl, by simp⟩ hsame
  exact ⟨m, steps, hm, hst⟩

/-- `C134_photo_double`, added up from left to right: every pixel of the photograph in error by up to 1 in 46. -/
example : ∃ m steps, ampthresh stripedPhoto 21 = .ok m ∧ ∀ fuel, (max 1 ⌊double ((41 : ℝ) / 3)⌋).toNat < fuel →
    coarselyLocateDD leftSum fuel m.bits 41 3 = some (.ok ((-75, 25), steps)) :=
  C134_photo_double leftSum _ leftSum_rounded stripedPhoto (by norm_num [stripedPhoto]) 40 0 46 1 (-75) 25 photo_example (by norm_num) 21
    (by norm_num) (by norm_num) (by norm_num) (Or.inl (by norm_num [stripedPhoto])) 41 3 (by norm_num)
    (by simpa using C52_clear_beam 41 0 (by norm_num) (by norm_num)) (by exact_mod_cast double_int 3 (by norm_num)) (by norm_num)
    (by rw [show ⌊(40 : ℝ) / 2⌋ = 20 by rw [Int.floor_eq_iff]; norm_num, show ⌊(41 : ℝ) / 2⌋ = 20 by rw [Int.floor_eq_iff]; norm_num])

/-- A picture of a disc of 7 counts a pixel is an image of counts. -/
theorem counts_example : CountImage (discPicture 100 200 40 7 (-75) 25) := by
  classical
  have hv : ∀ i j, ∃ n : ℕ, n ≤ 7 ∧ (discPicture 100 200 40 7 (-75) 25).val i j = n := by
    intro i j
    unfold discPicture
    simp only
    split
    · exact ⟨7, le_rfl, by norm_num⟩
    · exact ⟨0, by norm_num, by norm_num⟩
  refine ⟨fun i j => ⟨_, (hv i j).choose_spec.2⟩, ?_⟩
  have h1 : ∑ i, ∑ j, (discPicture 100 200 40 7 (-75) 25).val i j ≤
      ∑ _i : Fin (discPicture 100 200 40 7 (-75) 25).nr, ∑ _j : Fin (discPicture 100 200 40 7 (-75) 25).nc, (7 : ℝ) := by
    refine sum_le_sum fun i _ => sum_le_sum fun j _ => ?_
    obtain ⟨n, hn, e⟩ := hv i j
    rw [e]
    exact_mod_cast hn
  refine h1.trans ?_
  rw [sum_const, sum_const, card_univ, card_univ, Fintype.card_fin, Fintype.card_fin, nsmul_eq_mul, nsmul_eq_mul]
  show ((100 : ℕ) : ℝ) * (((200 : ℕ) : ℝ) * 7) ≤ 2 ^ 53
  norm_num

/-- `C52_double` and `C134_all_double`, with a beam size of 40.5 pixels. -/
example : (∀ xs ys radius step, coarseOnceD leftSum (discPicture 100 200 40 7 (-75) 25) (81 / 2) xs ys radius step =
      coarseOnce (discPicture 100 200 40 7 (-75) 25) (81 / 2) xs ys radius step) ∧
    ∃ steps, ∀ fuel, (max 1 ⌊double ((81 / 2 : ℝ) / 3)⌋).toNat < fuel →
      coarselyLocateDD leftSum fuel (discPicture 100 200 40 7 (-75) 25) (81 / 2) 3 = some (.ok ((-75, 25), steps)) := by
  have hc : ClearBeam (81 / 2) := by simpa using C52_clear_beam 81 1 (by norm_num) (by norm_num)
  refine ⟨C52_double leftSum _ leftSum_rounded _ counts_example _ hc, ?_⟩
  exact C134_all_double leftSum _ leftSum_rounded _ (discPicture 100 200 40 7 (-75) 25) counts_example 40 (81 / 2) 3 7 (by norm_num) (by norm_num) hc
    (by exact_mod_cast double_int 3 (by norm_num)) (by norm_num) (by norm_num) (-75) 25 (Or.inl (by simp [discPicture]))
    (discPicture_ideal _ _ _ _ _ _ (by norm_num) (by norm_num) (by norm_num) (by norm_num) (by norm_num)) ⟨rfl, rfl, by simp⟩
    (by rw [show ⌊(40 : ℝ) / 2⌋ = 20 by rw [Int.floor_eq_iff]; norm_num, show ⌊(81 / 2 : ℝ) / 2⌋ = 20 by rw [Int.floor_eq_iff]; norm_num])

end Coralign.Props
