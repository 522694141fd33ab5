import Verif.Model.NelderMead
import Verif.Spec.Optimizer
/-
Specification for the wrapper of `fmin`: what a program does, and what it may be assumed to respect.
-/
namespace Verif.Opt.Spec

variable {X K : Type}

/-- The program evaluates the points of the log, with these values, reports to the callback in between, and `rest` is what it would do next. -/
inductive Did : Prog X K → List (X × K) → Prog X K → Prop where
  | start (p : Prog X K) : Did p [] p
  | eval (x : X) (k : K → Prog X K) (r : K) (l : List (X × K)) (rest : Prog X K) : Did (k r) l rest → Did (.eval x k) ((x, r) :: l) rest
  | callback (k : Prog X K) (l : List (X × K)) (rest : Prog X K) : Did k l rest → Did (.callback k) l rest

/-- whatever values it gets, the program makes at most `n` evaluations -/
def AtMost (p : Prog X K) (n : Nat) : Prop := ∀ l rest, Did p l rest → l.length ≤ n

/-- whatever values it gets, the program makes at most `n` evaluations until it reports to the callback, and at most `b` between two reports -/
def Prompt (b : Nat) : Prog X K → Nat → Prop
  | .done, _ => True
  | .eval _ _, 0 => False
  | .eval _ k, n + 1 => ∀ r, Prompt b (k r) n
  | .callback k, _ => Prompt b k b

end Verif.Opt.Spec
