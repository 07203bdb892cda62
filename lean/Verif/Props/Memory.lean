import Verif.Lemmas.MemSound
import Verif.Model.MemProgs

/-!
# C90: calls leave the caller's arrays alone

The statements are about `Calls package fn args m o m'`: the function `fn` of the package, called with the buffers
`args` in memory `m`, can end in the way `o` with memory `m'`.  Branches, loop counts, written values and the
points where an exception comes from are unconstrained, so the statements hold for every input, every history and
every place an exception can interrupt a call.
-/

namespace Coralign.Props
open Coralign Coralign.Memory

/-- The functions with a result that may be (or contain) one of the caller's arrays, and for each of their results
the numbers of the arguments it may be.  Everything else returns new arrays only.
`fresnelprop` and `fresnelprop_fp` return the field itself for a zero distance; `unwrap` and `fit_pupil_zernikes`
hand back the mask they were given; `resample_inf_func` returns its input when the samplings agree; the upsampled
transform of a 0-dimensional array is that array; the validation functions return what they validated. -/
def mayShare (name : String) : List (List Nat) :=
  if name ∈ ["util.fresnelprop.fresnelprop", "util.fresnelprop.fresnelprop_fp",
      "util.fit_surf_to_dm.resample_inf_func", "psffit.psffit.compute_upsampled_dft",
      "util.check.real_positive_scalar", "util.check.real_array", "util.check.oneD_array",
      "util.check.twoD_array", "util.check.twoD_square_array", "util.check.threeD_array",
      "util.check.real_scalar", "util.check.real_nonnegative_scalar", "util.check.positive_scalar_integer",
      "util.check.nonnegative_scalar_integer", "util.check.scalar_integer", "util.check.string",
      "util.check.boolean", "util.check.dictionary"] then [[0]]
  else if name = "util.unwrap.unwrap" then [[], [6]]
  else if name = "pupil.pupilfit.fit_pupil_zernikes" then [[], [4]]
  else []

/-- The same table by number, for the checker. -/
private def shareTable : List (List (List Nat)) := package.map fun fn => mayShare fn.name

private def shareNums : List (List (List Nat)) :=
  (List.range package.length).map fun i =>
    if [36, 56, 57, 58, 59, 60, 61, 62, 63, 64, 65, 66, 67, 68, 69, 85, 88, 90].contains i then [[0]]
    else if i = 113 then [[], [6]] else if i = 46 then [[], [4]] else []

private theorem shareNums_eq : shareTable = shareNums := by decide +kernel

private def shareOf (f : Nat) : Shares :=
  if [36, 56, 57, 58, 59, 60, 61, 62, 63, 64, 65, 66, 67, 68, 69, 85, 88, 90].contains f then [[0]]
  else if f = 113 then [[], [6]] else if f = 46 then [[], [4]] else []

private theorem checked_list :
    (package.zipIdx.all fun t => checkFn shareOf (shareOf t.2) t.1) = true := by decide +kernel

private theorem all_checked : AllChecked package shareOf := by
  intro f fn hf
  exact List.all_eq_true.mp checked_list (fn, f) (List.mem_zipIdx_iff_getElem?.mpr hf)

private theorem shareOf_name {f : Nat} {fn : Fn} (hf : package[f]? = some fn) :
    shareOf f = mayShare fn.name := by
  have hlt : f < package.length := (List.getElem?_eq_some_iff.mp hf).1
  have h1 : shareTable[f]? = some (mayShare fn.name) := by
    unfold shareTable
    rw [List.getElem?_map, hf]; rfl
  have h2 : shareNums[f]? = some (shareOf f) := by
    unfold shareNums
    rw [List.getElem?_map, List.getElem?_range hlt]; rfl
  rw [shareNums_eq, h2] at h1
  exact Option.some.inj h1

private theorem calls_sound {V : Type} {fn : Fn} (hfn : fn ∈ package) {args : List Nat} {m m' : Mem V} {o : Out}
    (h : Calls package fn args m o m') :
    m.next ≤ m'.next ∧ (∀ b < m.next, m'.cell b = m.cell b) ∧
    ∀ bs, o = .returned bs → ∀ (i b : Nat), bs[i]? = some b →
      b < m'.next ∧ (m.next ≤ b ∨ ∃ k ∈ (mayShare fn.name).getD i [], args[k]? = some b) := by
  obtain ⟨f, hf⟩ := List.mem_iff_getElem?.mp hfn
  obtain ⟨_, hargs, v, e', hex⟩ := h
  have hchk := all_checked f fn hf
  unfold checkFn at hchk
  obtain ⟨R, hR⟩ := Option.isSome_iff_exists.mp hchk
  obtain ⟨c1, c2, c3⟩ := exec_sound all_checked hex (shareOf f) [] m.next args _ R
    (Good.entry fun i b hb => Nat.lt_succ_of_lt (hargs b (List.mem_of_getElem? hb))) hR
  have c1' : m.next + 1 ≤ m'.next := c1
  refine ⟨by omega, fun b hb => ?_, ?_⟩
  · have h2 : b ≠ m.next := by omega
    have h3 := c2 b hb
    simp only [Mem.push, h2, if_false] at h3
    exact h3
  · rintro bs rfl i b hb
    rw [← shareOf_name hf]
    exact c3 i b hb

/-- C90: whatever a function of the package is called with, and however the call ends (with a result, or with an
exception raised at any point), every array that existed before the call has the same contents after it. -/
theorem C90_arguments_unchanged {V : Type} {fn : Fn} (hfn : fn ∈ package) {args : List Nat} {m m' : Mem V}
    {o : Out} (h : Calls package fn args m o m') : ∀ b < m.next, m'.cell b = m.cell b :=
  (calls_sound hfn h).2.1

/-- C90: apart from the functions listed in `mayShare`, every returned array is new. -/
theorem C90_results_new {V : Type} {fn : Fn} (hfn : fn ∈ package) (hname : mayShare fn.name = [])
    {args bs : List Nat} {m m' : Mem V} (h : Calls package fn args m (.returned bs) m') :
    ∀ b ∈ bs, m.next ≤ b ∧ b < m'.next := by
  intro b hb
  obtain ⟨i, hi⟩ := List.mem_iff_getElem?.mp hb
  obtain ⟨h1, h2⟩ := (calls_sound hfn h).2.2 bs rfl i b hi
  refine ⟨?_, h1⟩
  rcases h2 with h2 | ⟨k, hk, _⟩
  · exact h2
  · rw [hname] at hk; simp at hk

/-- C90: a result of any function is new or is one of the arguments `mayShare` lists for it. -/
theorem C90_results_accounted {V : Type} {fn : Fn} (hfn : fn ∈ package)
    {args bs : List Nat} {m m' : Mem V} (h : Calls package fn args m (.returned bs) m')
    (i b : Nat) (hb : bs[i]? = some b) :
    m.next ≤ b ∨ ∃ k ∈ (mayShare fn.name).getD i [], args[k]? = some b :=
  ((calls_sound hfn h).2.2 bs rfl i b hb).2

/-- C90: so the caller may overwrite such a result without changing any array they had before, and may overwrite any
array they had before without changing the result. -/
theorem C90_results_independent {V : Type} {fn : Fn} (hfn : fn ∈ package) (hname : mayShare fn.name = [])
    {args bs : List Nat} {m m' : Mem V} (h : Calls package fn args m (.returned bs) m')
    {b : Nat} (hb : b ∈ bs) (v : V) :
    (∀ a < m.next, (m'.set b v).cell a = m.cell a) ∧
    (∀ a < m.next, (m'.set a v).cell b = m'.cell b) := by
  have hn := C90_results_new hfn hname h b hb
  constructor
  · intro a ha
    have : a ≠ b := by omega
    simp only [Mem.set, this, if_false]
    exact C90_arguments_unchanged hfn h a ha
  · intro a ha
    have : b ≠ a := by omega
    simp only [Mem.set, this, if_false]

/-- A history: any number of calls of functions of the package, each on any arrays that exist by then and each
ending in any way. -/
inductive CallHistory {V : Type} : Mem V → Mem V → Prop where
  | nil {m} : CallHistory m m
  | cons {m m₁ m₂ fn args o} : fn ∈ package → Calls package fn args m o m₁ → CallHistory m₁ m₂ →
      CallHistory m m₂

/-- C90: after any history of calls every array that existed at its start has kept its contents. -/
theorem C90_history {V : Type} {m m' : Mem V} (h : CallHistory m m') :
    m.next ≤ m'.next ∧ ∀ b < m.next, m'.cell b = m.cell b := by
  induction h with
  | nil => exact ⟨Nat.le_refl _, fun _ _ => rfl⟩
  | cons hfn hc _ ih =>
    obtain ⟨h1, h2, _⟩ := calls_sound hfn hc
    exact ⟨Nat.le_trans h1 ih.1, fun b hb => (ih.2 b (by omega)).trans (h2 b hb)⟩

/-- The package has 115 functions, and 20 of them may return one of their arguments. -/
example : package.length = 115 ∧ (package.filter fun fn => mayShare fn.name ≠ []).length = 20 := by
  decide +kernel

/-! ### A run that meets the hypotheses, and a function that would break the property -/

private theorem delivers_nil (rs : List Nat) (hole : Nat) (e : Env) : Delivers [] rs hole e e :=
  ⟨fun _ _ => rfl, fun x hx => by simp at hx⟩

/-- A call without targets of a function that ends normally, with new objects for all arguments. -/
private theorem call_runs {f : Nat} {fn : Fn} (hf : package[f]? = some fn) (args : List (List Nat))
    (hrun : ∀ (e : Env) (m : Mem Nat), ∃ o e₁ m₁, Exec package fn.body e m o e₁ m₁ ∧
      ((∃ rs, o = .returned rs) ∨ o = .fell))
    (p : Prog) (e : Env) (m : Mem Nat) {Q : Out → Env → Mem Nat → Prop}
    (hp : ∀ m₂ : Mem Nat, ∃ o e' m', Exec package p e m₂ o e' m' ∧ Q o e' m') :
    ∃ o e' m', Exec package (.call [] f args p) e m o e' m' ∧ Q o e' m' := by
  obtain ⟨o₁, e₁, m₁, h1, ho⟩ := hrun
    (entryEnv fn.params (List.replicate args.length m.next) m.next) (m.push 0)
  obtain ⟨o, e', m', h2, hQ⟩ := hp (m₁.push 0)
  refine ⟨o, e', m', ?_, hQ⟩
  have hb : ∀ (i : Nat) (ys : List Nat) (b : Nat), args[i]? = some ys →
      (List.replicate args.length m.next)[i]? = some b → b = m.next ∨ ∃ y ∈ ys, b = e y := by
    intro i ys b _ hb
    exact Or.inl (List.eq_of_mem_replicate (List.mem_of_getElem? hb))
  rcases ho with ⟨rs, rfl⟩ | rfl
  · exact Exec.call (rs := rs) hf (by simp) hb h1 (Or.inl rfl) (delivers_nil rs _ e) h2
  · exact Exec.call (rs := []) hf (by simp) hb h1 (Or.inr ⟨rfl, rfl⟩) (delivers_nil [] _ e) h2

private theorem twoD_runs (e : Env) (m : Mem Nat) : ∃ o e₁ m₁,
    Exec package p59_twoD_array.body e m o e₁ m₁ ∧ ((∃ rs, o = .returned rs) ∨ o = .fell) := by
  refine call_runs (f := 54) (fn := p54_checkname) rfl _ (fun e m => ⟨_, _, _, Exec.done, Or.inr rfl⟩) _ e m ?_
  intro m₂
  refine call_runs (f := 55) (fn := p55_checkexc) rfl _ (fun e m => ⟨_, _, _, Exec.done, Or.inr rfl⟩) _ e m₂ ?_
  intro m₃
  exact ⟨_, _, _, Exec.bindShare (y := 0) (by simp) Exec.ret, Or.inl ⟨_, rfl⟩⟩

/-- Beside C90: `combine` on the frame in buffer 0 and the bad-pixel map in buffer 1 has a run that writes 7 into its
copy and returns it: a new buffer holding 7, while the frame still holds 5. -/
example : ∃ bs m', Calls package p70_combine [0, 1] (⟨2, fun _ => 5⟩ : Mem Nat) (.returned bs) m' ∧
    (∃ b, bs = [b] ∧ m'.cell b = 7 ∧ 2 ≤ b) ∧ m'.cell 0 = 5 ∧ p70_combine ∈ package ∧
    mayShare p70_combine.name = [] := by
  have hrun : ∃ o e' m', Exec package p70_combine.body (entryEnv 2 [0, 1] 2)
      ((⟨2, fun _ => 5⟩ : Mem Nat).push 5) o e' m' ∧ ∃ b, o = .returned [b] ∧ m'.cell b = 7 := by
    refine call_runs (f := 59) (fn := p59_twoD_array) rfl _ twoD_runs _ _ _ ?_
    intro m₂
    refine call_runs (f := 59) (fn := p59_twoD_array) rfl _ twoD_runs _ _ _ ?_
    intro m₃
    refine ⟨_, _, _, Exec.alloc (v := 5) (Exec.write (v := 7) Exec.ret), _, rfl, ?_⟩
    simp [Mem.set, Env.set]
  obtain ⟨o, e', m', hex, b, rfl, hcell⟩ := hrun
  have hmem : p70_combine ∈ package := by unfold package; simp
  have hname : mayShare p70_combine.name = [] := by decide +kernel
  have hcalls : Calls package p70_combine [0, 1] (⟨2, fun _ => 5⟩ : Mem Nat) (.returned [b]) m' :=
    ⟨rfl, by simp, 5, e', hex⟩
  exact ⟨[b], m', hcalls, ⟨b, rfl, hcell, (C90_results_new hmem hname hcalls b (by simp)).1⟩,
    C90_arguments_unchanged hmem hcalls 0 (by decide), hmem, hname⟩

/-- `combine` without the copy: it would write into the caller's frame. -/
private def combineInPlace : Fn := ⟨"combine without copy", 2, .bind 2 [0] (.write 2 (.ret [2]))⟩

/-- Such a function is rejected by the check, and does change the caller's array: the property is not a consequence of
the semantics alone. -/
example : checkFn shareOf [] combineInPlace = false ∧
    ∃ m', Calls [combineInPlace] combineInPlace [0, 1] (⟨2, fun _ => 5⟩ : Mem Nat) (.returned [0]) m' ∧
      m'.cell 0 = 7 := by
  refine ⟨by decide, ?_⟩
  exact ⟨_, ⟨rfl, by simp, 5, _, Exec.bindShare (y := 0) (by simp) (Exec.write (v := 7) Exec.ret)⟩, rfl⟩

end Coralign.Props
