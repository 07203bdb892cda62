/-!
# Arrays in memory

A program-level model of which arrays a call reads, writes and returns.  An array is a numbered buffer of
a memory; a python variable refers to a buffer, and two variables (or slices, transposes, … of an array) may
refer to the same one.  The contents of a buffer are of an arbitrary type `V`, and a write may put anything
there, so nothing said here depends on the arithmetic.

Simplifications: a slice or other view is the buffer it looks into; numbers, strings, dictionaries read from
configuration files, … are buffers that nobody else refers to; conditions, loop counts and the points where an
exception is raised are unconstrained; external routines do not write into their arguments.

Models the assignments, calls, `if`, `for`, `while`, `return`, `raise` of every function in `/repo/coralign`
(translated in `Verif/Model/MemProgs.lean`).
-/

namespace Coralign.Memory

/-- The array operations of a function body, in continuation form: each constructor ends with the rest.
Models the statement forms used in `/repo/coralign` (see `MemProgs.lean` for the rules). -/
inductive Prog where
  /-- End of the block. -/
  | done
  /-- `x = <a new array>` -/
  | alloc (x : Nat) (rest : Prog)
  /-- `x = <a new array, or one sharing memory with one of ys>` -/
  | bind (x : Nat) (ys : List Nat) (rest : Prog)
  /-- `x[...] = ...`, `x += ...` -/
  | write (x : Nat) (rest : Prog)
  /-- `xs = f(args)`; each argument is the list of variables it may share memory with. -/
  | call (xs : List Nat) (f : Nat) (args : List (List Nat)) (rest : Prog)
  /-- `if`/`else` -/
  | branch (a b : Prog) (rest : Prog)
  /-- `for`/`while` -/
  | loop (a : Prog) (rest : Prog)
  /-- `return ys` -/
  | ret (ys : List Nat)
  /-- `break`, `continue` -/
  | exit
  /-- `raise` -/
  | raises
  deriving Repr, DecidableEq

/-- A function: its name, number of parameters (variables `0 … params-1`) and body.
Models a `def` of `/repo/coralign`. -/
structure Fn where
  name : String
  params : Nat
  body : Prog
  deriving Repr, DecidableEq

/-- The memory: buffers `0 … next-1` exist. Models the arrays alive in the interpreter. -/
structure Mem (V : Type) where
  next : Nat
  cell : Nat → V

/-- Allocate one more buffer. Models `np.zeros`, arithmetic results, …. -/
def Mem.push {V : Type} (m : Mem V) (v : V) : Mem V :=
  ⟨m.next + 1, fun b => if b = m.next then v else m.cell b⟩

/-- Overwrite one buffer. Models `x[...] = ...`. -/
def Mem.set {V : Type} (m : Mem V) (b : Nat) (v : V) : Mem V :=
  ⟨m.next, fun c => if c = b then v else m.cell c⟩

/-- The buffer each variable refers to. Models the local names of a call. -/
abbrev Env := Nat → Nat

/-- Rebind one variable. Models `x = …`. -/
def Env.set (e : Env) (x b : Nat) : Env := fun y => if y = x then b else e y

/-- How a block ended. -/
inductive Out where
  | fell
  | exited
  | returned (bs : List Nat)
  | raised

/-- Local names when a function starts: parameters refer to the arguments, all others to a placeholder. -/
def entryEnv (n : Nat) (args : List Nat) (hole : Nat) : Env := fun x =>
  if x < n then args.getD x hole else hole

/-- What the targets `xs` of a call refer to after the callee returned the buffers `bs`: a new object, or
the result in the same place; a single target takes the whole tuple, and a single result may be
unpacked. -/
def Delivers (xs bs : List Nat) (hole : Nat) (e e' : Env) : Prop :=
  (∀ x, x ∉ xs → e' x = e x) ∧
  ∀ x ∈ xs, e' x = hole ∨ (xs.length = 1 ∧ e' x ∈ bs) ∨ bs[0]? = some (e' x) ∨
    ∃ i : Nat, xs[i]? = some x ∧ bs[i]? = some (e' x)

/-- `Exec P p e m o e' m'`: the block `p`, started with names `e` and memory `m`, can end in the way `o` with
names `e'` and memory `m'`.  `P` is the list of functions. -/
inductive Exec {V : Type} (P : List Fn) : Prog → Env → Mem V → Out → Env → Mem V → Prop where
  | done {e m} : Exec P .done e m .fell e m
  /-- an exception can come from anywhere -/
  | stop {p e m} : Exec P p e m .raised e m
  | raises {e m} : Exec P .raises e m .raised e m
  | exit {e m} : Exec P .exit e m .exited e m
  | ret {ys e m} : Exec P (.ret ys) e m (.returned (ys.map e)) e m
  | alloc {x p e m v o e' m'} :
      Exec P p (e.set x m.next) (m.push v) o e' m' → Exec P (.alloc x p) e m o e' m'
  | bindNew {x ys p e m v o e' m'} :
      Exec P p (e.set x m.next) (m.push v) o e' m' → Exec P (.bind x ys p) e m o e' m'
  | bindShare {x ys y p e m o e' m'} : y ∈ ys →
      Exec P p (e.set x (e y)) m o e' m' → Exec P (.bind x ys p) e m o e' m'
  | write {x p e m v o e' m'} :
      Exec P p e (m.set (e x) v) o e' m' → Exec P (.write x p) e m o e' m'
  /-- the callee runs to a `return` (or its end) and the caller goes on -/
  | call {xs f args p e m fn bs v w o₁ e₁ m₁ rs e₂ o e' m'} :
      P[f]? = some fn →
      bs.length = args.length →
      (∀ (i : Nat) (ys : List Nat) (b : Nat), args[i]? = some ys → bs[i]? = some b → b = m.next ∨ ∃ y ∈ ys, b = e y) →
      Exec P fn.body (entryEnv fn.params bs m.next) (m.push v) o₁ e₁ m₁ →
      (o₁ = .returned rs ∨ (o₁ = .fell ∧ rs = [])) →
      Delivers xs rs m₁.next e e₂ →
      Exec P p e₂ (m₁.push w) o e' m' →
      Exec P (.call xs f args p) e m o e' m'
  /-- the callee raises -/
  | callRaises {xs f args p e m fn bs v e₁ m₁} :
      P[f]? = some fn →
      bs.length = args.length →
      (∀ (i : Nat) (ys : List Nat) (b : Nat), args[i]? = some ys → bs[i]? = some b → b = m.next ∨ ∃ y ∈ ys, b = e y) →
      Exec P fn.body (entryEnv fn.params bs m.next) (m.push v) .raised e₁ m₁ →
      Exec P (.call xs f args p) e m .raised e m₁
  | branchL {a b p e m e₁ m₁ o e' m'} :
      Exec P a e m .fell e₁ m₁ → Exec P p e₁ m₁ o e' m' → Exec P (.branch a b p) e m o e' m'
  | branchR {a b p e m e₁ m₁ o e' m'} :
      Exec P b e m .fell e₁ m₁ → Exec P p e₁ m₁ o e' m' → Exec P (.branch a b p) e m o e' m'
  | branchLOut {a b p e m o e' m'} :
      Exec P a e m o e' m' → o ≠ .fell → Exec P (.branch a b p) e m o e' m'
  | branchROut {a b p e m o e' m'} :
      Exec P b e m o e' m' → o ≠ .fell → Exec P (.branch a b p) e m o e' m'
  | loopEnd {a p e m o e' m'} : Exec P p e m o e' m' → Exec P (.loop a p) e m o e' m'
  | loopRound {a p e m o₁ e₁ m₁ o e' m'} :
      Exec P a e m o₁ e₁ m₁ → (o₁ = .fell ∨ o₁ = .exited) → Exec P (.loop a p) e₁ m₁ o e' m' →
      Exec P (.loop a p) e m o e' m'
  | loopOut {a p e m o e' m'} :
      Exec P a e m o e' m' → o ≠ .fell → o ≠ .exited → Exec P (.loop a p) e m o e' m'

/-- `Calls P fn args m o m'`: calling the function on the given buffers in memory `m` can end in the way `o`
with memory `m'`.  Models one call of a package function by a user, including calls that raise. -/
def Calls {V : Type} (P : List Fn) (fn : Fn) (args : List Nat) (m : Mem V) (o : Out) (m' : Mem V) : Prop :=
  args.length = fn.params ∧ (∀ b ∈ args, b < m.next) ∧
  ∃ v e', Exec P fn.body (entryEnv fn.params args m.next) (m.push v) o e' m'

end Coralign.Memory
