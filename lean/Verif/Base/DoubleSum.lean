import Verif.Base.DoubleProd

/-!
# Sums in double precision, in any order

`np.sum` adds pairwise, in blocks, in an order that depends on the build and the processor.  A sum is therefore modelled as any bracketing of any arrangement of the
terms, every addition rounded.
-/

namespace Coralign

/-- A bracketing of a sum. -/
inductive SumTree where
  | leaf (x : ℝ) : SumTree
  | node (l r : SumTree) : SumTree

namespace SumTree

/-- The terms, from left to right. -/
def leaves : SumTree → List ℝ
  | leaf x => [x]
  | node l r => l.leaves ++ r.leaves

/-- The largest number of additions a term goes through. -/
def depth : SumTree → ℕ
  | leaf _ => 0
  | node l r => max l.depth r.depth + 1

/-- The computed sum. -/
noncomputable def valueD : SumTree → ℝ
  | leaf x => x
  | node l r => double (l.valueD + r.valueD)

theorem leaves_ne (t : SumTree) : t.leaves ≠ [] := by
  induction t with
  | leaf x => simp [leaves]
  | node l r ihl _ => simp [leaves, ihl]

/-- No term goes through more additions than there are. -/
theorem depth_lt (t : SumTree) : t.depth < t.leaves.length := by
  induction t with
  | leaf x => simp [leaves, depth]
  | node l r ihl ihr =>
    have := List.length_pos_iff.mpr l.leaves_ne
    have := List.length_pos_iff.mpr r.leaves_ne
    simp only [leaves, depth, List.length_append]
    omega

end SumTree

/-- A routine that sums lists in some order, each term of a list of `n` terms going through at most `depth n` additions. -/
def RoundedSum (depth : ℕ → ℕ) (S : List ℝ → ℝ) : Prop :=
  S [] = 0 ∧ ∀ l, l ≠ [] → ∃ t : SumTree, t.leaves.Perm l ∧ t.depth ≤ depth l.length ∧ S l = t.valueD

/-- Whatever the order, `n` terms go through at most `n` additions. -/
theorem RoundedSum.any {depth : ℕ → ℕ} {S : List ℝ → ℝ} (h : RoundedSum depth S) : RoundedSum (fun n => n - 1) S := by
  refine ⟨h.1, fun l hl => ?_⟩
  obtain ⟨t, h1, -, h3⟩ := h.2 l hl
  exact ⟨t, h1, by have := t.depth_lt; rw [h1.length_eq] at this; show t.depth ≤ l.length - 1; omega, h3⟩

/-- Many roundings. -/
theorem Rel.leMany {n : ℕ} {r : ℝ} (h : Rel n r) (hn : n ≤ 2 ^ 50) : |r - 1| ≤ n / 2 ^ 52 := by
  have hu0 : 0 < roundoff := two_zpow_pos _
  have hu1 : roundoff ≤ 1 := by rw [roundoff_eq]; norm_num
  have n0 : (0 : ℝ) ≤ n := Nat.cast_nonneg n
  have nb : (n : ℝ) ≤ 1125899906842624 := by exact_mod_cast hn
  have hb : 1 - n * roundoff ≤ (1 - roundoff) ^ n := by
    have := one_add_mul_le_pow (show (-2 : ℝ) ≤ -roundoff by linarith) n
    have e : (1 + -roundoff) ^ n = (1 - roundoff) ^ n := by ring_nf
    linarith
  have hnu : n * roundoff = n / 2 ^ 53 := by
    rw [roundoff_eq]
    norm_num
    ring
  have hsm : (n : ℝ) / 2 ^ 53 ≤ 1 / 2 := by
    norm_num
    linarith
  have e2 : (n : ℝ) / 2 ^ 52 = 2 * (n / 2 ^ 53) := by norm_num; ring
  rw [e2]
  rw [hnu] at hb
  have a0 : 0 ≤ (n : ℝ) / 2 ^ 53 := div_nonneg n0 (by norm_num)
  generalize (n : ℝ) / 2 ^ 53 = a at *
  rw [abs_le]
  constructor
  · linarith [h.1]
  · have h2 := (mul_le_mul_of_nonneg_left hb h.pos.le).trans h.2
    by_contra hc
    push Not at hc
    have : (1 + 2 * a) * (1 - a) < r * (1 - a) := mul_lt_mul_of_pos_right (by linarith) (by linarith)
    nlinarith

/-- A sum of non-negative numbers, each known up to `n` roundings, is known up to `n` roundings. -/
theorem Rel.sum {n : ℕ} {x y : ℝ} (hx : 0 ≤ x) (hy : 0 ≤ y) {r s : ℝ} (hr : Rel n r) (hs : Rel n s) : ∃ q, Rel n q ∧ x * r + y * s = (x + y) * q := by
  rcases (add_nonneg hx hy).eq_or_lt with h | h
  · have hx0 : x = 0 := by linarith
    have hy0 : y = 0 := by linarith
    exact ⟨r, hr, by rw [hx0, hy0]; ring⟩
  refine ⟨(x * r + y * s) / (x + y), ⟨?_, ?_⟩, by field_simp⟩
  · rw [le_div_iff₀ h]
    nlinarith [hr.1, hs.1]
  · rw [div_mul_eq_mul_div, div_le_one h]
    nlinarith [hr.2, hs.2]

theorem Rel.listSum {ι : Type} (n : ℕ) (l : List ι) (f g : ι → ℝ) (hg : ∀ i ∈ l, 0 ≤ g i) (h : ∀ i ∈ l, ∃ r, Rel n r ∧ f i = g i * r) :
    ∃ q, Rel n q ∧ (l.map f).sum = (l.map g).sum * q := by
  induction l with
  | nil => exact ⟨1, rel_one.mono (Nat.zero_le n), by simp⟩
  | cons a l ih =>
    obtain ⟨q, hq, e⟩ := ih (fun i hi => hg i (List.mem_cons_of_mem _ hi)) fun i hi => h i (List.mem_cons_of_mem _ hi)
    obtain ⟨r, hr, e'⟩ := h a List.mem_cons_self
    have h0 : 0 ≤ (l.map g).sum := List.sum_nonneg fun x hx => by
      obtain ⟨i, hi, rfl⟩ := List.mem_map.mp hx
      exact hg i (List.mem_cons_of_mem _ hi)
    obtain ⟨p, hp, ep⟩ := Rel.sum (hg a List.mem_cons_self) h0 hr hq
    exact ⟨p, hp, by rw [List.map_cons, List.map_cons, List.sum_cons, List.sum_cons, e', e, ep]⟩

/-- A rounded sum of non-negative terms has a small relative error. -/
theorem SumTree.rel (t : SumTree) (h0 : ∀ x ∈ t.leaves, x = 0 ∨ (2 : ℝ) ^ (-1000 : ℤ) ≤ x) (hd : t.depth ≤ 2 ^ 50) :
    ∃ r, Rel t.depth r ∧ t.valueD = t.leaves.sum * r ∧ (t.leaves.sum = 0 ∨ (2 : ℝ) ^ (-1000 : ℤ) ≤ t.leaves.sum) := by
  induction t with
  | leaf x =>
    refine ⟨1, rel_one, by simp [valueD, leaves], ?_⟩
    have := h0 x (by simp [leaves])
    simpa [leaves] using this
  | node a b iha ihb =>
    have hda : a.depth + 1 ≤ 2 ^ 50 := le_trans (by simp only [depth]; omega) hd
    have hdb : b.depth + 1 ≤ 2 ^ 50 := le_trans (by simp only [depth]; omega) hd
    obtain ⟨r, hr, er, sr⟩ := iha (fun x hx => h0 x (by simp [leaves, hx])) (by omega)
    obtain ⟨s, hs, es, ss⟩ := ihb (fun x hx => h0 x (by simp [leaves, hx])) (by omega)
    have p0 := two_zpow_pos (-1000)
    have ha : 0 ≤ a.leaves.sum := by rcases sr with h | h <;> linarith
    have hb : 0 ≤ b.leaves.sum := by rcases ss with h | h <;> linarith
    obtain ⟨q, hq, eq⟩ := Rel.sum ha hb (hr.mono (le_max_left a.depth b.depth)) (hs.mono (le_max_right a.depth b.depth))
    have hsum : (node a b).leaves.sum = a.leaves.sum + b.leaves.sum := by simp [leaves]
    have size : a.leaves.sum + b.leaves.sum = 0 ∨ (2 : ℝ) ^ (-1000 : ℤ) ≤ a.leaves.sum + b.leaves.sum := by
      rcases sr with h | h
      · rcases ss with g | g
        · left; linarith
        · right; linarith
      · right; linarith
    rw [hsum]
    simp only [depth, valueD]
    rw [er, es, eq]
    have hmd : max a.depth b.depth ≤ 2 ^ 50 := by omega
    have hql := hq.leMany hmd
    have hmr : ((max a.depth b.depth : ℕ) : ℝ) ≤ 1125899906842624 := by exact_mod_cast hmd
    have hq2 : (1 / 2 : ℝ) ≤ q := by
      rw [abs_le] at hql
      have : ((max a.depth b.depth : ℕ) : ℝ) / 2 ^ 52 ≤ 1 / 2 := by
        generalize ((max a.depth b.depth : ℕ) : ℝ) = w at hmr
        norm_num
        linarith
      linarith [hql.1]
    have : ∃ δ, |δ| ≤ roundoff ∧ double ((a.leaves.sum + b.leaves.sum) * q) = (a.leaves.sum + b.leaves.sum) * q * (1 + δ) := by
      rcases size with h | h
      · exact ⟨0, by rw [abs_zero]; exact (two_zpow_pos _).le, by rw [h]; simp⟩
      · have hp : 0 < (a.leaves.sum + b.leaves.sum) * q := mul_pos (by linarith) hq.pos
        obtain ⟨k, hk⟩ : ∃ k : ℕ, (a.leaves.sum + b.leaves.sum) * q < (2 : ℝ) ^ k := pow_unbounded_of_one_lt _ (by norm_num)
        have hs : SizeIn (-1001) k ((a.leaves.sum + b.leaves.sum) * q) := by
          right
          rw [abs_of_pos hp]
          refine ⟨?_, by rw [zpow_natCast]; exact hk.le⟩
          rw [show (-1001 : ℤ) = -1000 + -1 by norm_num, two_zpow_add]
          refine mul_le_mul h ?_ (two_zpow_pos _).le (by linarith)
          rw [zpow_neg_one]
          linarith
        exact hs.rel (by norm_num)
    obtain ⟨δ, hδ, e⟩ := this
    exact ⟨q * (1 + δ), hq.mul (rel_step hδ), by rw [e]; ring, size⟩

/-- The computed sum of non-negative terms, in any order. -/
theorem RoundedSum.rel {depth : ℕ → ℕ} {S : List ℝ → ℝ} (h : RoundedSum depth S) (l : List ℝ) (h0 : ∀ x ∈ l, x = 0 ∨ (2 : ℝ) ^ (-1000 : ℤ) ≤ x)
    (hd : depth l.length ≤ 2 ^ 50) : ∃ r, Rel (depth l.length) r ∧ S l = l.sum * r := by
  by_cases hl : l = []
  · subst hl
    exact ⟨1, rel_one.mono (Nat.zero_le _), by rw [h.1]; simp⟩
  obtain ⟨t, h1, h2, h3⟩ := h.2 l hl
  obtain ⟨r, hr, e, -⟩ := t.rel (fun x hx => h0 x (h1.mem_iff.mp hx)) (h2.trans hd)
  exact ⟨r, hr.mono h2, by rw [h3, e, h1.sum_eq]⟩

end Coralign
