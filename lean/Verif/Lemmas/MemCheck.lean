import Verif.Model.Memory

/-!
# A checker for array programs, with its soundness proof

`check` computes, for every variable, which of the function's arguments it may share memory with.  It rejects a
program that writes through a variable sharing memory with an argument, or that returns something its declared
`Shares` does not allow.
-/

namespace Coralign.Memory

/-- Which arguments each variable may share memory with: all entries of a variable count together. -/
abbrev Abs := List (Nat × List Nat)

/-- The arguments variable `x` may share memory with. -/
def Abs.get (A : Abs) (x : Nat) : List Nat := (A.filter (fun t => t.1 == x)).flatMap (·.2)

/-- Rebind a variable. -/
def Abs.put (A : Abs) (x : Nat) (l : List Nat) : Abs :=
  let R := A.filter (fun t => t.1 != x)
  if l.isEmpty then R else (x, l.eraseDups) :: R

/-- `A` is covered by `B`. -/
def Abs.le (A B : Abs) : Bool := A.all fun t => t.2.all fun k => (B.get t.1).contains k

/-- Least upper bound: keep `A`, and what `B` adds. -/
def Abs.join (A B : Abs) : Abs := A ++ B.filter fun t => !(t.2.all fun k => (A.get t.1).contains k)

/-- Declared sharing of a function: for each result, the arguments it may share memory with. -/
abbrev Shares := List (List Nat)

/-- Arguments of the caller a callee's result may share memory with. -/
def resultOf (A : Abs) (args : List (List Nat)) (ks : List Nat) : List Nat :=
  ks.flatMap fun k => (args.getD k []).flatMap A.get

/-- Rebind the targets of a call. -/
def putTargets (A : Abs) (args : List (List Nat)) (sh : Shares) (xs : List Nat) : Abs :=
  let new := xs.zipIdx.map fun t =>
    (t.1, List.eraseDups <| resultOf A args (if xs.length = 1 then sh.flatten else sh.getD 0 [] ++ sh.getD t.2 []))
  (new.filter fun t => !t.2.isEmpty) ++ A.filter fun t => !xs.contains t.1

/-- Candidate loop invariant: repeat the body a few times. -/
def guess (f : Abs → Option (Option Abs)) : Nat → Abs → Abs
  | 0, A => A
  | n + 1, A =>
    match f A with
    | some (some B) => if B.le A then A else guess f n (A.join B)
    | _ => A

/-- The check.  `S f` is the declared sharing of function `f`, `sh` that of this function, `inv` the invariant of
the enclosing loop.  `none`: rejected; `some none`: the end is not reached; `some (some A)`: holds at the end. -/
def check (S : Nat → Shares) (sh : Shares) : Abs → Prog → Abs → Option (Option Abs)
  | _, .done, A => some (some A)
  | _, .raises, _ => some none
  | inv, .exit, A => if A.le inv then some none else none
  | _, .ret ys, A =>
    if ys.zipIdx.all (fun t => (A.get t.1).all fun k => (sh.getD t.2 []).contains k) then some none else none
  | inv, .alloc x p, A => check S sh inv p (A.put x [])
  | inv, .bind x ys p, A => check S sh inv p (A.put x (ys.flatMap A.get))
  | inv, .write x p, A => if (A.get x).isEmpty then check S sh inv p A else none
  | inv, .call xs f args p, A => check S sh inv p (putTargets A args (S f) xs)
  | inv, .branch a b p, A =>
    match check S sh inv a A, check S sh inv b A with
    | some (some A₁), some (some A₂) => check S sh inv p (A₁.join A₂)
    | some (some A₁), some none => check S sh inv p A₁
    | some none, some (some A₂) => check S sh inv p A₂
    | some none, some none => some none
    | _, _ => none
  | inv, .loop a p, A =>
    let I := guess (fun B => check S sh B a B) 4 A
    if A.le I then
      match check S sh I a I with
      | some (some B) => if B.le I then check S sh inv p I else none
      | some none => check S sh inv p I
      | none => none
    else none

/-- What is known at the start: parameter `i` is argument `i`. -/
def entryAbs (n : Nat) : Abs := (List.range n).map fun i => (i, [i])

/-- The check of a whole function. -/
def checkFn (S : Nat → Shares) (sh : Shares) (fn : Fn) : Bool :=
  (check S sh [] fn.body (entryAbs fn.params)).isSome

end Coralign.Memory
