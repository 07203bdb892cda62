import Verif.Base.Symmetric
import Verif.Props.DrUtil
import Verif.Props.SoftwareMask
import Verif.Props.AmpThresh
import Verif.Props.Quad

/-!
# C124: mirrored, transposed and turned measurements
-/

namespace Coralign.Props

open Coralign Finset

/-- Specification: the two exchanges of pixels that generate the eight symmetries of a picture. -/
inductive Flip where
  | mirror
  | transpose

/-- Specification: one exchange: left and right, or rows and columns. -/
def Flip.on {α : Type} : Flip → Arr2 α → Arr2 α
  | .mirror, a => a.fliplr
  | .transpose, a => a.tr

/-- Specification: several exchanges one after the other.  `[transpose, mirror]` is a quarter turn, `[transpose, mirror, transpose]` turns upside down. -/
def flipped {α : Type} (fs : List Flip) (a : Arr2 α) : Arr2 α := fs.foldl (fun b f => f.on b) a

theorem flipped_lift {α β γ : Type} (F : Arr2 α → Arr2 β → Res (Arr2 γ)) (h : ∀ f a b, F (Flip.on f a) (Flip.on f b) = (F a b).map (Flip.on f)) (fs : List Flip)
    (a : Arr2 α) (b : Arr2 β) : F (flipped fs a) (flipped fs b) = (F a b).map (flipped fs) := by
  induction fs generalizing a b with
  | nil =>
    show F a b = (F a b).map id
    cases F a b <;> rfl
  | cons f fs ih =>
    show F (flipped fs (f.on a)) (flipped fs (f.on b)) = _
    rw [ih, h]
    cases F a b <;> rfl

/-! ### Piston, tip and tilt -/

section
variable {n m : ℕ}

/-- What `remove_piston_tip_tilt` returns is the only map with these three properties. -/
theorem ptt_unique (S : Solver) (v o : Fin n → Fin m → ℝ) (k : Fin n → Fin m → Bool) (h0 : ∀ i j, k i j = false → o i j = 0) (p q r : ℝ)
    (h1 : ∀ i j, k i j = true → o i j = v i j - (p + q * ((i : ℕ) : ℝ) + r * ((j : ℕ) : ℝ)))
    (h2 : ∀ p q r : ℝ, ∑ i : Fin n, ∑ j : Fin m, (p + q * ((i : ℕ) : ℝ) + r * ((j : ℕ) : ℝ)) * o i j = 0) : o = pttValues S v k := by
  set w := pttValues S v k with hw
  obtain ⟨p', q', r', hp⟩ : ∃ p' q' r' : ℝ, ∀ i j, k i j = true → w i j = v i j - (p' + q' * ((i : ℕ) : ℝ) + r' * ((j : ℕ) : ℝ)) := by
    refine ⟨pttCoeffs S v k 2 - pttCoeffs S v k 0 / 2 - pttCoeffs S v k 1 / 2, pttCoeffs S v k 1 / n, pttCoeffs S v k 0 / m, fun i j hk => ?_⟩
    rw [hw]
    unfold pttValues
    simp only
    rw [if_pos hk]
    have hn : (n : ℝ) ≠ 0 := by have := i.isLt; exact_mod_cast (by omega : n ≠ 0)
    have hm : (m : ℝ) ≠ 0 := by have := j.isLt; exact_mod_cast (by omega : m ≠ 0)
    unfold pttCoord
    field_simp
    ring
  have hm := ptt_moment S v k
  rw [← hw] at hm
  have hsq : ∑ i : Fin n, ∑ j : Fin m, (o i j - w i j) ^ 2 = 0 := by
    have e : ∑ i : Fin n, ∑ j : Fin m, (o i j - w i j) ^ 2 =
        ∑ i : Fin n, ∑ j : Fin m, ((p' - p + (q' - q) * ((i : ℕ) : ℝ) + (r' - r) * ((j : ℕ) : ℝ)) * o i j -
          (p' - p + (q' - q) * ((i : ℕ) : ℝ) + (r' - r) * ((j : ℕ) : ℝ)) * w i j) := by
      refine sum_congr rfl fun i _ => sum_congr rfl fun j _ => ?_
      by_cases hk : k i j = true
      · rw [h1 i j hk, hp i j hk]; ring
      · have hk' : k i j = false := by simpa using hk
        have : w i j = 0 := by rw [hw]; simp [pttValues, hk]
        rw [h0 i j hk', this]; ring
    rw [e]
    simp only [sum_sub_distrib]
    rw [h2, hm, sub_zero]
  funext i j
  have h3 := (sum_eq_zero_iff_of_nonneg fun i _ => sum_nonneg fun j _ => sq_nonneg (o i j - w i j)).mp hsq i (mem_univ _)
  have h4 := (sum_eq_zero_iff_of_nonneg fun j _ => sq_nonneg (o i j - w i j)).mp h3 j (mem_univ _)
  have := pow_eq_zero_iff (two_ne_zero) |>.mp h4
  linarith

theorem ptt_plane (S : Solver) (v : Fin n → Fin m → ℝ) (k : Fin n → Fin m → Bool) :
    ∃ p q r : ℝ, ∀ i j, k i j = true → pttValues S v k i j = v i j - (p + q * ((i : ℕ) : ℝ) + r * ((j : ℕ) : ℝ)) := by
  refine ⟨pttCoeffs S v k 2 - pttCoeffs S v k 0 / 2 - pttCoeffs S v k 1 / 2, pttCoeffs S v k 1 / n, pttCoeffs S v k 0 / m, fun i j hk => ?_⟩
  unfold pttValues
  simp only
  rw [if_pos hk]
  have hn : (n : ℝ) ≠ 0 := by have := i.isLt; exact_mod_cast (by omega : n ≠ 0)
  have hm : (m : ℝ) ≠ 0 := by have := j.isLt; exact_mod_cast (by omega : m ≠ 0)
  unfold pttCoord
  field_simp
  ring

theorem rev_real (j : Fin m) : (((Fin.rev j : Fin m) : ℕ) : ℝ) = (m : ℝ) - 1 - ((j : ℕ) : ℝ) := by
  have h := j.isLt
  have : ((Fin.rev j : Fin m) : ℕ) + (j : ℕ) + 1 = m := by rw [Fin.val_rev]; omega
  have h' : (((Fin.rev j : Fin m) : ℕ) : ℝ) + (j : ℕ) + 1 = m := by exact_mod_cast this
  linarith

theorem ptt_rev (S : Solver) (v : Fin n → Fin m → ℝ) (k : Fin n → Fin m → Bool) :
    pttValues S (fun i j => v i j.rev) (fun i j => k i j.rev) = fun i j => pttValues S v k i j.rev := by
  obtain ⟨p, q, r, h⟩ := ptt_plane S v k
  refine (ptt_unique S _ _ _ (fun i j hk => ?_) (p + r * ((m : ℝ) - 1)) q (-r) (fun i j hk => ?_) fun a b c => ?_).symm
  · simp [pttValues, show k i j.rev = false from hk]
  · rw [h i j.rev hk, rev_real]; ring
  · have := ptt_moment S v k (a + c * ((m : ℝ) - 1)) b (-c)
    rw [← this]
    refine sum_congr rfl fun i _ => ?_
    rw [← Equiv.sum_comp Fin.revPerm]
    refine sum_congr rfl fun j _ => ?_
    rw [Fin.revPerm_apply, Fin.rev_rev, rev_real]
    ring

theorem ptt_swap (S : Solver) (v : Fin n → Fin m → ℝ) (k : Fin n → Fin m → Bool) :
    pttValues S (fun i j => v j i) (fun i j => k j i) = fun i j => pttValues S v k j i := by
  obtain ⟨p, q, r, h⟩ := ptt_plane S v k
  refine (ptt_unique S _ _ _ (fun i j hk => ?_) p r q (fun i j hk => ?_) fun a b c => ?_).symm
  · simp [pttValues, show k j i = false from hk]
  · rw [h j i hk]; ring
  · have := ptt_moment S v k a c b
    rw [← this, sum_comm]
    refine sum_congr rfl fun i _ => sum_congr rfl fun j _ => ?_
    ring

end

theorem ptt_on_flip (S : Solver) (f : Flip) (a : Arr2 ℝ) (b : Arr2 Bool) :
    removePistonTipTilt S (f.on a) (f.on b) = (removePistonTipTilt S a b).map f.on := by
  obtain ⟨n, m, v⟩ := a
  obtain ⟨n', m', k⟩ := b
  by_cases h : n = n' ∧ m = m'
  · obtain ⟨rfl, rfl⟩ := h
    rw [ptt_ok S ⟨n, m, v⟩ ⟨n, m, k⟩ rfl rfl]
    cases f with
    | mirror =>
      rw [show Flip.mirror.on (⟨n, m, v⟩ : Arr2 ℝ) = ⟨n, m, fun i j => v i j.rev⟩ from rfl,
        show Flip.mirror.on (⟨n, m, k⟩ : Arr2 Bool) = ⟨n, m, fun i j => k i j.rev⟩ from rfl, ptt_ok S ⟨n, m, _⟩ ⟨n, m, _⟩ rfl rfl]
      show Except.ok (⟨n, m, pttValues S (fun i j => v i j.rev) (fun i j => k i j.rev)⟩ : Arr2 ℝ) = .ok ⟨n, m, fun i j => pttValues S v k i j.rev⟩
      rw [ptt_rev]
    | transpose =>
      rw [show Flip.transpose.on (⟨n, m, v⟩ : Arr2 ℝ) = ⟨m, n, fun i j => v j i⟩ from rfl,
        show Flip.transpose.on (⟨n, m, k⟩ : Arr2 Bool) = ⟨m, n, fun i j => k j i⟩ from rfl, ptt_ok S ⟨m, n, _⟩ ⟨m, n, _⟩ rfl rfl]
      show Except.ok (⟨m, n, pttValues S (fun i j => v j i) (fun i j => k j i)⟩ : Arr2 ℝ) = .ok ⟨m, n, fun i j => pttValues S v k j i⟩
      rw [ptt_swap]
  · have e : removePistonTipTilt S ⟨n, m, v⟩ ⟨n', m', k⟩ = .error .valueError := dif_neg h
    rw [e]
    cases f with
    | mirror => exact dif_neg h
    | transpose => exact dif_neg fun hc => h ⟨hc.2, hc.1⟩

/-- **C124.** Removing piston, tip and tilt commutes with mirroring, transposing and turning the phase map and its mask. -/
theorem C124_piston_tip_tilt (S : Solver) (fs : List Flip) (arr : Arr2 ℝ) (mask : Arr2 Bool) :
    removePistonTipTilt S (flipped fs arr) (flipped fs mask) = (removePistonTipTilt S arr mask).map (flipped fs) :=
  flipped_lift (removePistonTipTilt S) (fun f a b => ptt_on_flip S f a b) fs arr mask

/-! ### Amplitude threshold -/

theorem pixels_on_flip {K : Type} (f : Flip) (a : Arr2 K) : (f.on a).pixels.Perm a.pixels := by
  classical
  have key : ∀ (b : Arr2 K), (b.pixels : Multiset K) = ∑ i : Fin b.nr, ∑ j : Fin b.nc, ({b.val i j} : Multiset K) := by
    intro b
    unfold Arr2.pixels
    have : ∀ l : List (Fin b.nr), ((l.flatMap fun i => (List.finRange b.nc).map fun j => b.val i j : List K) : Multiset K) =
        (l.map fun i => ∑ j : Fin b.nc, ({b.val i j} : Multiset K)).sum := by
      intro l
      induction l with
      | nil => rfl
      | cons i l ih =>
        rw [List.flatMap_cons, ← Multiset.coe_add, ih, List.map_cons, List.sum_cons]
        congr 1
        have : ∀ l' : List (Fin b.nc), ((l'.map fun j => b.val i j : List K) : Multiset K) = (l'.map fun j => ({b.val i j} : Multiset K)).sum := by
          intro l'
          induction l' with
          | nil => rfl
          | cons j l' ih' => rw [List.map_cons, ← Multiset.cons_coe, ih', List.map_cons, List.sum_cons, Multiset.singleton_add]
        rw [this, ← List.sum_ofFn, List.ofFn_eq_map]
    rw [this, ← List.sum_ofFn, List.ofFn_eq_map]
  rw [← Multiset.coe_eq_coe, key, key]
  cases f with
  | mirror =>
    show ∑ i : Fin a.nr, ∑ j : Fin a.nc, ({a.val i j.rev} : Multiset K) = _
    refine sum_congr rfl fun i _ => ?_
    exact Equiv.sum_comp Fin.revPerm fun j => ({a.val i j} : Multiset K)
  | transpose =>
    show ∑ i : Fin a.nc, ∑ j : Fin a.nr, ({a.val j i} : Multiset K) = _
    exact sum_comm

theorem min_perm {K : Type} [LinearOrder K] {a b : List K} (h : a.Perm b) : a.min? = b.min? ∧ a.max? = b.max? := by
  constructor
  · cases ha : a.min? with
    | none => rw [List.min?_eq_none_iff] at ha; subst ha; rw [List.nil_perm.mp h]; rfl
    | some x =>
      have := (List.min?_eq_some_iff).mp ha
      exact ((List.min?_eq_some_iff).mpr ⟨h.mem_iff.mp this.1, fun y hy => this.2 y (h.mem_iff.mpr hy)⟩).symm
  · cases ha : a.max? with
    | none => rw [List.max?_eq_none_iff] at ha; subst ha; rw [List.nil_perm.mp h]; rfl
    | some x =>
      have := (List.max?_eq_some_iff).mp ha
      exact ((List.max?_eq_some_iff).mpr ⟨h.mem_iff.mp this.1, fun y hy => this.2 y (h.mem_iff.mpr hy)⟩).symm

theorem threshold_perm {K : Type} [Field K] [LinearOrder K] {a b : List K} (h : a.Perm b) (n : ℕ) : ampThreshold a n = ampThreshold b n := by
  unfold ampThreshold
  rw [(min_perm h).1, (min_perm h).2]
  have : ∀ lo hi k, histCount a lo hi n k = histCount b lo hi n k := fun lo hi k => h.countP_eq _
  simp only [show histCount a = histCount b from funext fun lo => funext fun hi => funext fun n => funext fun k => h.countP_eq _]

theorem on_map {α β : Type} (f : Flip) (g : α → β) (a : Arr2 α) : (f.on a).map g = f.on (a.map g) := by cases f <;> rfl

theorem thresh_on_flip {K : Type} [Field K] [LinearOrder K] (f : Flip) (a : Arr2 K) (nBin : ℤ) : ampthresh (f.on a) nBin = (ampthresh a nBin).map f.on := by
  unfold ampthresh
  by_cases h : nBin ≤ 0
  · rw [if_pos h, if_pos h]; rfl
  · rw [if_neg h, if_neg h, threshold_perm (pixels_on_flip f a)]
    cases ampThreshold a.pixels nBin.toNat with
    | error e => rfl
    | ok t => simp only [on_map]; rfl

/-- **C124.** The amplitude mask of a mirrored, transposed or turned map is the mirrored, transposed or turned mask, and refusals are the same. -/
theorem C124_amplitude_mask {K : Type} [Field K] [LinearOrder K] (fs : List Flip) (a : Arr2 K) (nBin : ℤ) :
    ampthresh (flipped fs a) nBin = (ampthresh a nBin).map (flipped fs) :=
  flipped_lift (fun (a : Arr2 K) (_ : Arr2 K) => ampthresh a nBin) (fun f a _ => thresh_on_flip f a nBin) fs a a

/-! ### Software mask -/

/-- The pixel that an exchange brings to `(i, j)`. -/
def Flip.src {α : Type} (f : Flip) (a : Arr2 α) (i j : ℤ) : ℤ × ℤ := match f with
  | .mirror => (i, (a.nc : ℤ) - 1 - j)
  | .transpose => (j, i)

theorem on_px {α : Type} (f : Flip) (a : Arr2 α) (i j : ℤ) : (f.on a).px i j = a.px (f.src a i j).1 (f.src a i j).2 := by
  cases f with
  | mirror => exact fliplr_px a i j
  | transpose => exact tr_px a i j

theorem sub_same {n m : ℕ} (f g : Fin n → Fin m → ℝ) : (⟨n, m, f⟩ : Arr2 ℝ).subPx ⟨n, m, g⟩ = ⟨n, m, fun i j => f i j - g i j⟩ := by
  unfold Arr2.subPx
  simp only
  congr 1
  funext i j
  rw [Arr2.px_val ⟨n, m, g⟩ i j]; rfl

theorem drop_same {n m : ℕ} (f : Fin n → Fin m → Bool) (g : Fin n → Fin m → ℝ) (t : ℝ) :
    dropLarge ⟨n, m, f⟩ ⟨n, m, g⟩ t = ⟨n, m, fun i j => open Classical in if t < |g i j| then false else f i j⟩ := by
  unfold dropLarge
  simp only
  congr 1
  funext i j
  rw [Arr2.px_val ⟨n, m, g⟩ i j]; rfl

theorem drop_on (f : Flip) (a : Arr2 Bool) (b : Arr2 ℝ) (t : ℝ) (h : b.nr = a.nr ∧ b.nc = a.nc) : dropLarge (f.on a) (f.on b) t = f.on (dropLarge a b t) := by
  obtain ⟨n, m, u⟩ := a
  obtain ⟨n', m', v⟩ := b
  obtain ⟨h1, h2⟩ := h
  simp only at h1 h2
  subst h1 h2
  rw [drop_same]
  cases f with
  | mirror => exact drop_same (fun i j => u i j.rev) (fun i j => v i j.rev) t
  | transpose => exact drop_same (fun i j => u j i) (fun i j => v j i) t

theorem erode_on (f : Flip) (a : Arr2 Bool) (n : ℕ) : erode (f.on a) (squareElem n) = f.on (erode a (squareElem n)) := by
  have key : ∀ i j : ℤ, (erode (f.on a) (squareElem n)).px i j = some true ↔ (f.on (erode a (squareElem n))).px i j = some true := by
    intro i j
    rw [px_erode_square, on_px, px_erode_square]
    constructor
    · intro h i' j' hi hj
      cases f with
      | mirror =>
        have := h i' ((a.nc : ℤ) - 1 - j') hi (by
          have : |j' - ((a.nc : ℤ) - 1 - j)| ≤ n := hj
          rw [abs_le] at this ⊢; omega)
        rw [on_px] at this
        simpa [Flip.src] using this
      | transpose =>
        have := h j' i' hj hi
        rw [on_px] at this
        exact this
    · intro h i' j' hi hj
      rw [on_px]
      cases f with
      | mirror =>
        refine h _ _ hi ?_
        show |((a.nc : ℤ) - 1 - j') - ((a.nc : ℤ) - 1 - j)| ≤ n
        rw [abs_le] at hj ⊢; omega
      | transpose => exact h _ _ hj hi
  have hr : (erode (f.on a) (squareElem n)).nr = (f.on (erode a (squareElem n))).nr := by cases f <;> rfl
  have hc : (erode (f.on a) (squareElem n)).nc = (f.on (erode a (squareElem n))).nc := by cases f <;> rfl
  refine Arr2.ext_px hr hc fun i j h1 h2 h3 h4 => ?_
  have k := key i j
  rw [Arr2.px_of_inB _ ⟨⟨h1, h2⟩, h3, h4⟩, Arr2.px_of_inB _ ⟨⟨h1, hr ▸ h2⟩, h3, hc ▸ h4⟩] at k ⊢
  simp only [Option.some.injEq] at k ⊢
  exact Bool.eq_iff_iff.mpr k

theorem on_shape {α β : Type} (f : Flip) (a : Arr2 α) (b : Arr2 β) :
    ((f.on a).nr ≠ (f.on b).nr ∨ (f.on a).nc ≠ (f.on b).nc) ↔ (a.nr ≠ b.nr ∨ a.nc ≠ b.nc) := by
  cases f with
  | mirror => exact Iff.rfl
  | transpose => exact Or.comm

theorem mask_on_flip (S : Solver) (f : Flip) (amp0 ph0 amp1 ph1 : Arr2 ℝ) (dm n : ℤ) (t : ℝ) :
    calcSoftwareMask S (f.on amp0) (f.on ph0) (f.on amp1) (f.on ph1) dm n t = (calcSoftwareMask S amp0 ph0 amp1 ph1 dm n t).map f.on := by
  unfold calcSoftwareMask
  simp only [on_shape]
  by_cases h1 : amp0.nr ≠ ph0.nr ∨ amp0.nc ≠ ph0.nc
  · rw [if_pos h1, if_pos h1]; rfl
  rw [if_neg h1, if_neg h1]
  by_cases h2 : amp0.nr ≠ amp1.nr ∨ amp0.nc ≠ amp1.nc
  · rw [if_pos h2, if_pos h2]; rfl
  rw [if_neg h2, if_neg h2]
  by_cases h3 : ph0.nr ≠ ph1.nr ∨ ph0.nc ≠ ph1.nc
  · rw [if_pos h3, if_pos h3]; rfl
  rw [if_neg h3, if_neg h3]
  by_cases h4 : ¬ (dm = 1 ∨ dm = 2)
  · rw [if_pos h4, if_pos h4]; rfl
  rw [if_neg h4, if_neg h4]
  by_cases h5 : n < 0
  · rw [if_pos h5, if_pos h5]; rfl
  rw [if_neg h5, if_neg h5]
  by_cases h6 : t ≤ 0
  · rw [if_pos h6, if_pos h6]; rfl
  rw [if_neg h6, if_neg h6, thresh_on_flip]
  cases ha : ampthresh amp0 21 with
  | error e => rfl
  | ok u =>
    have hs : (f.on ph1).subPx (f.on ph0) = f.on (ph1.subPx ph0) := by
      obtain ⟨p, q, x⟩ := ph0
      obtain ⟨p', q', y⟩ := ph1
      simp only [ne_eq, not_or, not_not] at h3
      obtain ⟨rfl, rfl⟩ := h3
      rw [sub_same]
      cases f with
      | mirror => exact sub_same (fun i j => y i j.rev) (fun i j => x i j.rev)
      | transpose => exact sub_same (fun i j => y j i) (fun i j => x j i)
    show (match removePistonTipTilt S ((f.on ph1).subPx (f.on ph0)) (f.on u) with
      | .error e => .error e
      | .ok r => .ok (erode (dropLarge (f.on u) r t) (squareElem n.toNat)) : Res (Arr2 Bool)) = _
    rw [hs, ptt_on_flip]
    cases hp : removePistonTipTilt S (ph1.subPx ph0) u with
    | error e => simp only [hp]; rfl
    | ok r =>
      simp only [hp]
      show Except.ok (erode (dropLarge (f.on u) (f.on r) t) (squareElem n.toNat)) = Except.ok (f.on (erode (dropLarge u r t) (squareElem n.toNat)))
      rw [drop_on f u r t (ptt_shape S _ _ _ hp), erode_on]

/-- **C124.** The software mask of mirrored, transposed or turned amplitude and phase maps is the mirrored, transposed or turned software mask, and refusals are
the same. -/
theorem C124_software_mask (S : Solver) (fs : List Flip) (amp0 ph0 amp1 ph1 : Arr2 ℝ) (dm n : ℤ) (t : ℝ) :
    calcSoftwareMask S (flipped fs amp0) (flipped fs ph0) (flipped fs amp1) (flipped fs ph1) dm n t =
      (calcSoftwareMask S amp0 ph0 amp1 ph1 dm n t).map (flipped fs) := by
  induction fs generalizing amp0 ph0 amp1 ph1 with
  | nil =>
    show calcSoftwareMask S amp0 ph0 amp1 ph1 dm n t = (calcSoftwareMask S amp0 ph0 amp1 ph1 dm n t).map id
    cases calcSoftwareMask S amp0 ph0 amp1 ph1 dm n t <;> rfl
  | cons f fs ih =>
    show calcSoftwareMask S (flipped fs (f.on amp0)) (flipped fs (f.on ph0)) (flipped fs (f.on amp1)) (flipped fs (f.on ph1)) dm n t = _
    rw [ih, mask_on_flip]
    cases calcSoftwareMask S amp0 ph0 amp1 ph1 dm n t <;> rfl

/-! ### Quadrant balance -/

theorem quadCounts_tr (a : Arr2 ℝ) (ox oy : ℤ) (r : ℝ) (q q' : ℝ → ℝ → Prop) (h : ∀ x y, q x y ↔ q' y x) : quadCounts a.tr oy ox r q = quadCounts a ox oy r q' := by
  unfold quadCounts
  simp only
  show ∑ i : Fin a.nc, ∑ j : Fin a.nr, _ = _
  rw [sum_comm]
  have ht : ∑ i : Fin a.tr.nr, ∑ j : Fin a.tr.nc, a.tr.val i j = ∑ i : Fin a.nr, ∑ j : Fin a.nc, a.val i j := by
    show ∑ i : Fin a.nc, ∑ j : Fin a.nr, a.val j i = _
    exact sum_comm
  refine sum_congr rfl fun i _ => sum_congr rfl fun j _ => ?_
  rw [ht]
  have hc : ∀ x y : ℝ, (cart2pol x y).1 = (cart2pol y x).1 := by
    intro x y
    unfold cart2pol
    simp only
    rw [add_comm]
  rw [hc]
  have hp := h ((((i : ℕ) : ℤ) - oy : ℤ) : ℝ) ((((j : ℕ) : ℤ) - ox : ℤ) : ℝ)
  show sel (q _ _ ∧ _) (a.val i j / _) = sel (q' _ _ ∧ _) (a.val i j / _)
  simp only [propext hp]

/-- **C124.** Transposing the image and exchanging the two coordinates of the origin exchanges the two balances. -/
theorem C124_quadrants_transposed (a : Arr2 ℝ) (ox oy : ℤ) (r : ℝ) :
    quadrantEnergyBalance a.tr oy ox r = (quadrantEnergyBalance a ox oy r).map (Option.map fun b => (b.2, b.1)) := by
  unfold quadrantEnergyBalance
  by_cases h1 : r < 0
  · rw [if_pos h1, if_pos h1]; rfl
  rw [if_neg h1, if_neg h1]
  by_cases h2 : ox < 0
  · by_cases h3 : oy < 0
    · rw [if_pos h3, if_pos h2]; rfl
    · rw [if_neg h3, if_pos h2, if_pos h2]; rfl
  by_cases h3 : oy < 0
  · rw [if_pos h3, if_neg h2, if_pos h3]; rfl
  rw [if_neg h3, if_neg h2, if_neg h2, if_neg h3]
  by_cases h4 : ox < a.nr
  · by_cases h5 : oy < a.nc
    · rw [if_neg (show ¬ ¬ oy < a.tr.nr from not_not.mpr h5), if_neg (show ¬ ¬ ox < a.tr.nc from not_not.mpr h4), if_neg (not_not.mpr h4), if_neg (not_not.mpr h5)]
      have ht : ∑ i : Fin a.tr.nr, ∑ j : Fin a.tr.nc, a.tr.val i j = ∑ i : Fin a.nr, ∑ j : Fin a.nc, a.val i j := by
        show ∑ i : Fin a.nc, ∑ j : Fin a.nr, a.val j i = _
        exact sum_comm
      simp only [ht]
      by_cases h6 : ∑ i : Fin a.nr, ∑ j : Fin a.nc, a.val i j = 0
      · rw [if_pos h6, if_pos h6]; rfl
      rw [if_neg h6, if_neg h6]
      rw [quadCounts_tr a ox oy r (fun x y => x ≥ 0 ∧ y ≥ 0) (fun x y => x ≥ 0 ∧ y ≥ 0) (fun x y => and_comm),
        quadCounts_tr a ox oy r (fun x y => x ≤ 0 ∧ y ≥ 0) (fun x y => x ≥ 0 ∧ y ≤ 0) (fun x y => and_comm),
        quadCounts_tr a ox oy r (fun x y => x ≥ 0 ∧ y ≤ 0) (fun x y => x ≤ 0 ∧ y ≥ 0) (fun x y => and_comm),
        quadCounts_tr a ox oy r (fun x y => x ≤ 0 ∧ y ≤ 0) (fun x y => x ≤ 0 ∧ y ≤ 0) (fun x y => and_comm)]
      rfl
    · rw [if_pos (show ¬ oy < a.tr.nr from h5), if_neg (not_not.mpr h4), if_pos h5]; rfl
  · by_cases h5 : oy < a.nc
    · rw [if_neg (show ¬ ¬ oy < a.tr.nr from not_not.mpr h5), if_pos (show ¬ ox < a.tr.nc from h4), if_pos h4]; rfl
    · rw [if_pos (show ¬ oy < a.tr.nr from h5), if_pos h4]; rfl

/-! ### Cases -/

/-- A picture that no exchange leaves unchanged, with a threshold; its mask transposed. -/
example : flipped [Flip.transpose] bimodal ≠ bimodal ∧ (ampthresh bimodal 5).toBool = true ∧
    (match ampthresh (flipped [Flip.transpose] bimodal) 5 with | .ok m => m.pixels | .error _ => []) = [false, true, false, true, false, true] := by
  refine ⟨fun h => ?_, by decide +kernel, by decide +kernel⟩
  have : (3 : ℕ) = 2 := congrArg Arr2.nr h
  omega

/-- A quarter turn of a picture. -/
example : (flipped [Flip.transpose, Flip.mirror] (Arr2.ofFn 2 2 fun i j => 2 * i + j)).pixels = [2, 0, 3, 1] := by decide +kernel

end Coralign.Props
