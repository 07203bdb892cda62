import Verif.Lemmas.MemCheck
import Mathlib.Data.List.Basic
import Mathlib.Tactic.Common

/-!
# Soundness of the checker of array programs
-/

namespace Coralign.Memory

theorem Abs.mem_get {A : Abs} {x k : Nat} : k ∈ A.get x ↔ ∃ l, (x, l) ∈ A ∧ k ∈ l := by
  unfold Abs.get
  simp only [List.mem_flatMap, List.mem_filter, beq_iff_eq]
  constructor
  · rintro ⟨⟨y, l⟩, ⟨h1, h2⟩, h3⟩
    exact ⟨l, by simp only at h2; rw [← h2]; exact h1, h3⟩
  · rintro ⟨l, h1, h2⟩
    exact ⟨(x, l), ⟨h1, rfl⟩, h2⟩

theorem Abs.get_put_self {A : Abs} {x k : Nat} {l : List Nat} (h : k ∈ l) : k ∈ (A.put x l).get x := by
  have hne : l.isEmpty = false := by cases l <;> simp_all
  unfold Abs.put
  rw [Abs.mem_get]
  exact ⟨l.eraseDups, by simp [hne], by simpa using h⟩

theorem Abs.get_put_ne {A : Abs} {x y k : Nat} {l : List Nat} (hxy : y ≠ x) (h : k ∈ A.get y) :
    k ∈ (A.put x l).get y := by
  rw [Abs.mem_get] at h ⊢
  obtain ⟨l', h1, h2⟩ := h
  refine ⟨l', ?_, h2⟩
  unfold Abs.put
  have : (y, l') ∈ A.filter (fun t => t.1 != x) := by simp [h1, hxy]
  by_cases hl : l.isEmpty = true
  · simp only [hl, if_true]; exact this
  · simp only [hl]; exact List.mem_cons_of_mem _ this

theorem Abs.le_get {A B : Abs} (h : A.le B = true) {x k : Nat} (hk : k ∈ A.get x) : k ∈ B.get x := by
  rw [Abs.mem_get] at hk
  obtain ⟨l, h1, h2⟩ := hk
  unfold Abs.le at h
  have := List.all_eq_true.mp h _ h1
  have := List.all_eq_true.mp this _ h2
  simpa using this

theorem Abs.le_refl (A : Abs) : A.le A = true := by
  unfold Abs.le
  rw [List.all_eq_true]
  rintro ⟨x, l⟩ h
  rw [List.all_eq_true]
  intro k hk
  have : k ∈ A.get x := Abs.mem_get.mpr ⟨l, h, hk⟩
  simpa using this

theorem Abs.join_left {A B : Abs} {x k : Nat} (h : k ∈ A.get x) : k ∈ (A.join B).get x := by
  rw [Abs.mem_get] at h ⊢
  obtain ⟨l, h1, h2⟩ := h
  exact ⟨l, List.mem_append_left _ h1, h2⟩

theorem Abs.join_right {A B : Abs} {x k : Nat} (h : k ∈ B.get x) : k ∈ (A.join B).get x := by
  obtain ⟨l, h1, h2⟩ := Abs.mem_get.mp h
  by_cases hc : (l.all fun k => (A.get x).contains k) = true
  · have := List.all_eq_true.mp hc _ h2
    exact Abs.join_left (by simpa using this)
  · rw [Abs.mem_get]
    refine ⟨l, List.mem_append_right _ ?_, h2⟩
    rw [List.mem_filter]
    refine ⟨h1, ?_⟩
    simpa using hc

theorem putTargets_ne {A : Abs} {args : List (List Nat)} {sh : Shares} {xs : List Nat} {x k : Nat}
    (hx : x ∉ xs) (h : k ∈ A.get x) : k ∈ (putTargets A args sh xs).get x := by
  rw [Abs.mem_get] at h ⊢
  obtain ⟨l, h1, h2⟩ := h
  refine ⟨l, ?_, h2⟩
  unfold putTargets
  refine List.mem_append_right _ ?_
  rw [List.mem_filter]
  exact ⟨h1, by simpa using hx⟩

theorem putTargets_at {A : Abs} {args : List (List Nat)} {sh : Shares} {xs : List Nat} {x i k : Nat}
    (hx : xs[i]? = some x)
    (h : k ∈ resultOf A args (if xs.length = 1 then sh.flatten else sh.getD 0 [] ++ sh.getD i [])) :
    k ∈ (putTargets A args sh xs).get x := by
  rw [Abs.mem_get]
  refine ⟨_, List.mem_append_left _ ?_, List.mem_eraseDups.mpr h⟩
  rw [List.mem_filter]
  constructor
  · rw [List.mem_map]
    exact ⟨(x, i), List.mem_zipIdx_iff_getElem?.mpr hx, rfl⟩
  · have : k ∈ List.eraseDups (resultOf A args
        (if xs.length = 1 then sh.flatten else sh.getD 0 [] ++ sh.getD i [])) := List.mem_eraseDups.mpr h
    cases hl : List.eraseDups (resultOf A args
        (if xs.length = 1 then sh.flatten else sh.getD 0 [] ++ sh.getD i [])) with
    | nil => rw [hl] at this; simp at this
    | cons _ _ => simp

/-- Every variable refers to an existing buffer, which is either at least `N` or one of the arguments the
abstract state allows. -/
def Good {V : Type} (N : Nat) (args : List Nat) (A : Abs) (e : Env) (m : Mem V) : Prop :=
  N ≤ m.next ∧ ∀ x, e x < m.next ∧ (N ≤ e x ∨ ∃ k ∈ A.get x, args[k]? = some (e x))

theorem Good.mono {V : Type} {N : Nat} {args : List Nat} {A B : Abs} {e : Env} {m m' : Mem V}
    (h : Good N args A e m) (hA : ∀ x k, k ∈ A.get x → k ∈ B.get x) (hm : m.next ≤ m'.next) :
    Good N args B e m' := by
  refine ⟨Nat.le_trans h.1 hm, fun x => ⟨Nat.lt_of_lt_of_le (h.2 x).1 hm, ?_⟩⟩
  rcases (h.2 x).2 with h' | ⟨k, hk, hk'⟩
  · exact Or.inl h'
  · exact Or.inr ⟨k, hA x k hk, hk'⟩

theorem Good.put {V : Type} {N : Nat} {args : List Nat} {A : Abs} {e : Env} {m m' : Mem V} {x b : Nat}
    {l : List Nat} (h : Good N args A e m) (hm : m.next ≤ m'.next) (hb : b < m'.next)
    (hv : N ≤ b ∨ ∃ k ∈ l, args[k]? = some b) : Good N args (A.put x l) (e.set x b) m' := by
  refine ⟨Nat.le_trans h.1 hm, fun y => ?_⟩
  unfold Env.set
  by_cases hy : y = x
  · rw [if_pos hy]
    refine ⟨hb, ?_⟩
    rcases hv with hv | ⟨k, hk, hk'⟩
    · exact Or.inl hv
    · exact Or.inr ⟨k, hy ▸ Abs.get_put_self hk, hk'⟩
  · rw [if_neg hy]
    refine ⟨Nat.lt_of_lt_of_le (h.2 y).1 hm, ?_⟩
    rcases (h.2 y).2 with h' | ⟨k, hk, hk'⟩
    · exact Or.inl h'
    · exact Or.inr ⟨k, Abs.get_put_ne hy hk, hk'⟩

theorem Good.entry {V : Type} {m : Mem V} {v : V} {n : Nat} {bs : List Nat}
    (hb : ∀ (i b : Nat), bs[i]? = some b → b < m.next + 1) :
    Good m.next bs (entryAbs n) (entryEnv n bs m.next) (m.push v) := by
  refine ⟨Nat.le_succ _, fun x => ?_⟩
  show _ < m.next + 1 ∧ _
  unfold entryEnv
  by_cases hx : x < n
  · rw [if_pos hx]
    cases hbx : bs[x]? with
    | none =>
      rw [List.getD_eq_getElem?_getD, hbx]
      exact ⟨Nat.lt_succ_self _, Or.inl (Nat.le_refl _)⟩
    | some b =>
      rw [List.getD_eq_getElem?_getD, hbx]
      refine ⟨hb x b hbx, Or.inr ⟨x, ?_, hbx⟩⟩
      rw [Abs.mem_get]
      exact ⟨[x], List.mem_map.mpr ⟨x, List.mem_range.mpr hx, rfl⟩, List.mem_singleton.mpr rfl⟩
  · rw [if_neg hx]
    exact ⟨Nat.lt_succ_self _, Or.inl (Nat.le_refl _)⟩

/-- What the check guarantees about the end of a block. -/
def EndsWell {V : Type} (N : Nat) (args : List Nat) (sh : Shares) (inv : Abs) (R : Option Abs)
    (e' : Env) (m' : Mem V) : Out → Prop
  | .fell => ∃ A', R = some A' ∧ Good N args A' e' m'
  | .exited => Good N args inv e' m'
  | .returned bs => ∀ (i b : Nat), bs[i]? = some b →
      b < m'.next ∧ (N ≤ b ∨ ∃ k ∈ sh.getD i [], args[k]? = some b)
  | .raised => True

/-- All functions pass the check with the declared sharing `S`. -/
def AllChecked (P : List Fn) (S : Nat → Shares) : Prop :=
  ∀ (f : Nat) (fn : Fn), P[f]? = some fn → checkFn S (S f) fn = true

theorem exec_sound {V : Type} {P : List Fn} {S : Nat → Shares} (hP : AllChecked P S)
    {p : Prog} {e : Env} {m : Mem V} {o : Out} {e' : Env} {m' : Mem V} (h : Exec P p e m o e' m') :
    ∀ (sh : Shares) (inv : Abs) (N : Nat) (args : List Nat) (A : Abs) (R : Option Abs),
      Good N args A e m → check S sh inv p A = some R →
      m.next ≤ m'.next ∧ (∀ b < N, m'.cell b = m.cell b) ∧ EndsWell N args sh inv R e' m' o := by
  induction h with
  | done =>
    intro sh inv N args A R hG hc
    simp only [check, Option.some.injEq] at hc
    exact ⟨(Nat.le_refl _), fun _ _ => rfl, A, hc.symm, hG⟩
  | stop => intro sh inv N args A R hG hc; exact ⟨(Nat.le_refl _), fun _ _ => rfl, trivial⟩
  | raises => intro sh inv N args A R hG hc; exact ⟨(Nat.le_refl _), fun _ _ => rfl, trivial⟩
  | exit =>
    intro sh inv N args A R hG hc
    simp only [check] at hc
    split at hc
    · rename_i hle
      exact ⟨(Nat.le_refl _), fun _ _ => rfl, hG.mono (fun x k hk => Abs.le_get hle hk) (Nat.le_refl _)⟩
    · cases hc
  | @ret ys e m =>
    intro sh inv N args A R hG hc
    simp only [check] at hc
    split at hc
    · rename_i hall
      refine ⟨(Nat.le_refl _), fun _ _ => rfl, ?_⟩
      intro i b hb
      rw [List.getElem?_map, Option.map_eq_some_iff] at hb
      obtain ⟨y, hy, rfl⟩ := hb
      refine ⟨(hG.2 y).1, ?_⟩
      rcases (hG.2 y).2 with h' | ⟨k, hk, hk'⟩
      · exact Or.inl h'
      · refine Or.inr ⟨k, ?_, hk'⟩
        have h1 := List.all_eq_true.mp hall (y, i) (List.mem_zipIdx_iff_getElem?.mpr hy)
        have h2 := List.all_eq_true.mp h1 k hk
        simpa using h2
    · cases hc
  | @alloc x p e m v o e' m' _ ih =>
    intro sh inv N args A R hG hc
    simp only [check] at hc
    have hG' : Good N args (A.put x []) (e.set x m.next) (m.push v) :=
      hG.put (Nat.le_succ _) (Nat.lt_succ_self _) (Or.inl hG.1)
    obtain ⟨h1, h2, h3⟩ := ih sh inv N args _ R hG' hc
    refine ⟨Nat.le_trans (Nat.le_succ _) h1, fun b hb => ?_, h3⟩
    rw [h2 b hb]
    have : b ≠ m.next := by have := hG.1; omega
    simp [Mem.push, this]
  | @bindNew x ys p e m v o e' m' _ ih =>
    intro sh inv N args A R hG hc
    simp only [check] at hc
    have hG' : Good N args (A.put x (ys.flatMap A.get)) (e.set x m.next) (m.push v) :=
      hG.put (Nat.le_succ _) (Nat.lt_succ_self _) (Or.inl hG.1)
    obtain ⟨h1, h2, h3⟩ := ih sh inv N args _ R hG' hc
    refine ⟨Nat.le_trans (Nat.le_succ _) h1, fun b hb => ?_, h3⟩
    rw [h2 b hb]
    have : b ≠ m.next := by have := hG.1; omega
    simp [Mem.push, this]
  | @bindShare x ys y p e m o e' m' hy _ ih =>
    intro sh inv N args A R hG hc
    simp only [check] at hc
    have hG' : Good N args (A.put x (ys.flatMap A.get)) (e.set x (e y)) m := by
      refine hG.put (Nat.le_refl _) (hG.2 y).1 ?_
      rcases (hG.2 y).2 with h' | ⟨k, hk, hk'⟩
      · exact Or.inl h'
      · exact Or.inr ⟨k, List.mem_flatMap.mpr ⟨y, hy, hk⟩, hk'⟩
    exact ih sh inv N args _ R hG' hc
  | @write x p e m v o e' m' _ ih =>
    intro sh inv N args A R hG hc
    simp only [check] at hc
    split at hc
    · rename_i hem
      have hG' : Good N args A e (m.set (e x) v) := hG.mono (fun _ _ h => h) (Nat.le_refl _)
      obtain ⟨h1, h2, h3⟩ := ih sh inv N args A R hG' hc
      refine ⟨h1, fun b hb => ?_, h3⟩
      rw [h2 b hb]
      have hx : N ≤ e x := by
        rcases (hG.2 x).2 with h' | ⟨k, hk, _⟩
        · exact h'
        · rw [List.isEmpty_iff.mp hem] at hk; simp at hk
      have : b ≠ e x := by omega
      simp [Mem.set, this]
    · cases hc
  | @call xs f as p e m fn bs v w o₁ e₁ m₁ rs e₂ o e' m' hf hlen hbs _ ho hdel _ ihc ih =>
    intro sh inv N args A R hG hc
    simp only [check] at hc
    have hblt : ∀ (i b : Nat), bs[i]? = some b → b < m.next + 1 := by
      intro i b hb
      have hi : i < as.length := by
        rw [← hlen]; exact (List.getElem?_eq_some_iff.mp hb).1
      rcases hbs i as[i] b (List.getElem?_eq_getElem hi) hb with h | ⟨y, _, h⟩
      · omega
      · have := (hG.2 y).1; omega
    have hchk := hP f fn hf
    unfold checkFn at hchk
    obtain ⟨R', hR'⟩ := Option.isSome_iff_exists.mp hchk
    obtain ⟨c1, c2, c3⟩ := ihc (S f) [] m.next bs _ R' (Good.entry hblt) hR'
    have c1' : m.next + 1 ≤ m₁.next := c1
    -- what the results are
    have hres : ∀ (i b : Nat), rs[i]? = some b → b < m₁.next ∧
        (N ≤ b ∨ ∃ k ∈ resultOf A as ((S f).getD i []), args[k]? = some b) := by
      intro i b hb
      rcases ho with ho | ⟨_, ho⟩
      · subst ho
        obtain ⟨d1, d2⟩ := c3 i b hb
        refine ⟨d1, ?_⟩
        rcases d2 with d2 | ⟨k, hk, hk'⟩
        · exact Or.inl (Nat.le_trans hG.1 d2)
        · have hi : k < as.length := by
            rw [← hlen]; exact (List.getElem?_eq_some_iff.mp hk').1
          rcases hbs k as[k] b (List.getElem?_eq_getElem hi) hk' with h | ⟨y, hy, h⟩
          · left; have := hG.1; omega
          · rw [h]
            rcases (hG.2 y).2 with h' | ⟨k2, hk2, hk2'⟩
            · exact Or.inl h'
            · refine Or.inr ⟨k2, ?_, hk2'⟩
              unfold resultOf
              refine List.mem_flatMap.mpr ⟨k, hk, List.mem_flatMap.mpr ⟨y, ?_, hk2⟩⟩
              rw [List.getD_eq_getElem?_getD, List.getElem?_eq_getElem hi]
              exact hy
      · rw [ho] at hb; simp at hb
    have hsub : ∀ (ks ls : List Nat), (∀ k ∈ ks, k ∈ ls) →
        ∀ k ∈ resultOf A as ks, k ∈ resultOf A as ls := by
      intro ks ls hkl k hk
      unfold resultOf at hk ⊢
      obtain ⟨j, hj, hj'⟩ := List.mem_flatMap.mp hk
      exact List.mem_flatMap.mpr ⟨j, hkl j hj, hj'⟩
    have hflat : ∀ (i k : Nat), k ∈ (S f).getD i [] → k ∈ (S f).flatten := by
      intro i k hk
      rw [List.getD_eq_getElem?_getD] at hk
      cases hl : (S f)[i]? with
      | none => rw [hl] at hk; simp at hk
      | some l =>
        rw [hl] at hk
        exact List.mem_flatten.mpr ⟨l, List.mem_of_getElem? hl, hk⟩
    have hG' : Good N args (putTargets A as (S f) xs) e₂ (m₁.push w) := by
      refine ⟨?_, fun x => ?_⟩
      · show N ≤ m₁.next + 1
        have := hG.1; omega
      show e₂ x < m₁.next + 1 ∧ _
      by_cases hx : x ∈ xs
      · obtain ⟨j, hj⟩ := List.mem_iff_getElem?.mp hx
        rcases hdel.2 x hx with h | ⟨h1, h⟩ | h | ⟨i, hi, h⟩
        · exact ⟨by omega, Or.inl (by have := hG.1; omega)⟩
        · obtain ⟨i, hi⟩ := List.mem_iff_getElem?.mp h
          obtain ⟨d1, d2⟩ := hres i _ hi
          refine ⟨by omega, ?_⟩
          rcases d2 with d2 | ⟨k, hk, hk'⟩
          · exact Or.inl d2
          · refine Or.inr ⟨k, putTargets_at hj ?_, hk'⟩
            rw [if_pos h1]
            exact hsub _ _ (hflat i) k hk
        · obtain ⟨d1, d2⟩ := hres 0 _ h
          refine ⟨by omega, ?_⟩
          rcases d2 with d2 | ⟨k, hk, hk'⟩
          · exact Or.inl d2
          · refine Or.inr ⟨k, putTargets_at hj ?_, hk'⟩
            refine hsub _ _ ?_ k hk
            intro k hk
            split
            · exact hflat 0 k hk
            · exact List.mem_append_left _ hk
        · obtain ⟨d1, d2⟩ := hres i _ h
          refine ⟨by omega, ?_⟩
          rcases d2 with d2 | ⟨k, hk, hk'⟩
          · exact Or.inl d2
          · refine Or.inr ⟨k, putTargets_at hi ?_, hk'⟩
            refine hsub _ _ ?_ k hk
            intro k hk
            split
            · exact hflat i k hk
            · exact List.mem_append_right _ hk
      · rw [hdel.1 x hx]
        refine ⟨by have := (hG.2 x).1; omega, ?_⟩
        rcases (hG.2 x).2 with h' | ⟨k, hk, hk'⟩
        · exact Or.inl h'
        · exact Or.inr ⟨k, putTargets_ne hx hk, hk'⟩
    obtain ⟨r1, r2, r3⟩ := ih sh inv N args _ R hG' hc
    have r1' : m₁.next + 1 ≤ m'.next := r1
    refine ⟨by omega, fun b hb => ?_, r3⟩
    have hbN : b < m.next := Nat.lt_of_lt_of_le hb hG.1
    rw [r2 b hb]
    have h1 : b ≠ m₁.next := by omega
    have h2 : b ≠ m.next := by omega
    have h3 := c2 b hbN
    simp only [Mem.push, h1, h2, if_false] at h3 ⊢
    exact h3
  | @callRaises xs f as p e m fn bs v e₁ m₁ hf hlen hbs _ ihc =>
    intro sh inv N args A R hG hc
    have hblt : ∀ (i b : Nat), bs[i]? = some b → b < m.next + 1 := by
      intro i b hb
      have hi : i < as.length := by
        rw [← hlen]; exact (List.getElem?_eq_some_iff.mp hb).1
      rcases hbs i as[i] b (List.getElem?_eq_getElem hi) hb with h | ⟨y, _, h⟩
      · omega
      · have := (hG.2 y).1; omega
    have hchk := hP f fn hf
    unfold checkFn at hchk
    obtain ⟨R', hR'⟩ := Option.isSome_iff_exists.mp hchk
    obtain ⟨c1, c2, c3⟩ := ihc (S f) [] m.next bs _ R' (Good.entry hblt) hR'
    have c1' : m.next + 1 ≤ m₁.next := c1
    refine ⟨by omega, fun b hb => ?_, trivial⟩
    have hbN : b < m.next := Nat.lt_of_lt_of_le hb hG.1
    have h2 : b ≠ m.next := by omega
    have h3 := c2 b hbN
    simp only [Mem.push, h2, if_false] at h3
    exact h3
  | @branchL a b p e m e₁ m₁ o e' m' _ _ iha ih =>
    intro sh inv N args A R hG hc
    simp only [check] at hc
    cases ha : check S sh inv a A with
    | none => rw [ha] at hc; cases hc
    | some Ra =>
      obtain ⟨a1, a2, A', hA', hG'⟩ := iha sh inv N args A Ra hG ha
      subst hA'
      rw [ha] at hc
      have hfin : ∀ B, (∀ x k, k ∈ A'.get x → k ∈ B.get x) → check S sh inv p B = some R →
          m.next ≤ m'.next ∧ (∀ b < N, m'.cell b = m.cell b) ∧ EndsWell N args sh inv R e' m' o := by
        intro B hB hcB
        obtain ⟨b1, b2, b3⟩ := ih sh inv N args B R (hG'.mono hB (Nat.le_refl _)) hcB
        exact ⟨Nat.le_trans a1 b1, fun b hb => (b2 b hb).trans (a2 b hb), b3⟩
      cases hb : check S sh inv b A with
      | none => rw [hb] at hc; cases hc
      | some Rb =>
        rw [hb] at hc
        cases Rb with
        | none => exact hfin _ (fun _ _ h => h) hc
        | some B => exact hfin _ (fun _ _ h => Abs.join_left h) hc
  | @branchR a b p e m e₁ m₁ o e' m' _ _ iha ih =>
    intro sh inv N args A R hG hc
    simp only [check] at hc
    cases hb : check S sh inv b A with
    | none => rw [hb] at hc; cases ha : check S sh inv a A with
      | none => rw [ha] at hc; cases hc
      | some Ra => rw [ha] at hc; cases Ra <;> cases hc
    | some Rb =>
      obtain ⟨a1, a2, A', hA', hG'⟩ := iha sh inv N args A Rb hG hb
      subst hA'
      rw [hb] at hc
      have hfin : ∀ B, (∀ x k, k ∈ A'.get x → k ∈ B.get x) → check S sh inv p B = some R →
          m.next ≤ m'.next ∧ (∀ b < N, m'.cell b = m.cell b) ∧ EndsWell N args sh inv R e' m' o := by
        intro B hB hcB
        obtain ⟨b1, b2, b3⟩ := ih sh inv N args B R (hG'.mono hB (Nat.le_refl _)) hcB
        exact ⟨Nat.le_trans a1 b1, fun b hb => (b2 b hb).trans (a2 b hb), b3⟩
      cases ha : check S sh inv a A with
      | none => rw [ha] at hc; cases hc
      | some Ra =>
        rw [ha] at hc
        cases Ra with
        | none => exact hfin _ (fun _ _ h => h) hc
        | some B => exact hfin _ (fun _ _ h => Abs.join_right h) hc
  | @branchLOut a b p e m o e' m' _ hne iha =>
    intro sh inv N args A R hG hc
    simp only [check] at hc
    cases ha : check S sh inv a A with
    | none => rw [ha] at hc; cases hc
    | some Ra =>
      obtain ⟨a1, a2, a3⟩ := iha sh inv N args A Ra hG ha
      refine ⟨a1, a2, ?_⟩
      cases o with
      | fell => exact absurd rfl hne
      | exited => exact a3
      | returned bs => exact a3
      | raised => trivial
  | @branchROut a b p e m o e' m' _ hne iha =>
    intro sh inv N args A R hG hc
    simp only [check] at hc
    cases hb : check S sh inv b A with
    | none => rw [hb] at hc; cases ha : check S sh inv a A with
      | none => rw [ha] at hc; cases hc
      | some Ra => rw [ha] at hc; cases Ra <;> cases hc
    | some Rb =>
      obtain ⟨a1, a2, a3⟩ := iha sh inv N args A Rb hG hb
      refine ⟨a1, a2, ?_⟩
      cases o with
      | fell => exact absurd rfl hne
      | exited => exact a3
      | returned bs => exact a3
      | raised => trivial
  | @loopEnd a p e m o e' m' _ ih =>
    intro sh inv N args A R hG hc
    simp only [check] at hc
    split at hc
    · rename_i hle
      have hG' := hG.mono (fun x k hk => Abs.le_get hle hk) (Nat.le_refl _)
      split at hc
      · split at hc
        · exact ih sh inv N args _ R hG' hc
        · cases hc
      · exact ih sh inv N args _ R hG' hc
      · cases hc
    · cases hc
  | @loopRound a p e m o₁ e₁ m₁ o e' m' _ ho₁ _ iha ih =>
    intro sh inv N args A R hG hc
    simp only [check] at hc
    split at hc
    · rename_i hle
      have hG' := hG.mono (fun x k hk => Abs.le_get hle hk) (Nat.le_refl _)
      generalize hI : guess (fun B => check S sh B a B) 4 A = I at hc hG' hle
      -- the invariant is its own invariant
      have hkey : ∀ Ra, check S sh I a I = some Ra → (∀ B, Ra = some B → B.le I = true) →
          check S sh inv p I = some R → m.next ≤ m'.next ∧ (∀ b < N, m'.cell b = m.cell b) ∧
            EndsWell N args sh inv R e' m' o := by
        intro Ra hRa hRle hpI
        obtain ⟨a1, a2, a3⟩ := iha sh I N args I Ra hG' hRa
        have hG₁ : Good N args I e₁ m₁ := by
          rcases ho₁ with rfl | rfl
          · obtain ⟨B, hB, hGB⟩ := a3
            exact hGB.mono (fun x k hk => Abs.le_get (hRle B hB) hk) (Nat.le_refl _)
          · exact a3
        have hself : check S sh inv (.loop a p) I = some R := by
          simp only [check]
          have hg : guess (fun B => check S sh B a B) 4 I = I := by
            unfold guess
            simp only [hRa]
            cases Ra with
            | none => rfl
            | some B => simp only [hRle B rfl, if_true]
          rw [hg, if_pos (Abs.le_refl I), hRa]
          cases Ra with
          | none => exact hpI
          | some B => simp only [hRle B rfl, if_true]; exact hpI
        obtain ⟨b1, b2, b3⟩ := ih sh inv N args I R hG₁ hself
        exact ⟨Nat.le_trans a1 b1, fun b hb => (b2 b hb).trans (a2 b hb), b3⟩
      split at hc
      · rename_i B hB
        split at hc
        · rename_i hBI
          exact hkey _ hB (fun B' h => by cases h; exact hBI) hc
        · cases hc
      · rename_i hB
        exact hkey _ hB (fun B' h => by cases h) hc
      · cases hc
    · cases hc
  | @loopOut a p e m o e' m' _ h1 h2 iha =>
    intro sh inv N args A R hG hc
    simp only [check] at hc
    split at hc
    · rename_i hle
      have hG' := hG.mono (fun x k hk => Abs.le_get hle hk) (Nat.le_refl _)
      split at hc
      · rename_i B hB
        obtain ⟨a1, a2, a3⟩ := iha sh _ N args _ _ hG' hB
        refine ⟨a1, a2, ?_⟩
        cases o with
        | fell => exact absurd rfl h1
        | exited => exact absurd rfl h2
        | returned bs => exact a3
        | raised => trivial
      · rename_i hB
        obtain ⟨a1, a2, a3⟩ := iha sh _ N args _ _ hG' hB
        refine ⟨a1, a2, ?_⟩
        cases o with
        | fell => exact absurd rfl h1
        | exited => exact absurd rfl h2
        | returned bs => exact a3
        | raised => trivial
      · cases hc
    · cases hc

end Coralign.Memory
