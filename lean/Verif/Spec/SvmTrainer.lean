import Verif.Model.SvmTrainer
/-
Specification of the trainer of support vector machines: what the parameters of a call mean.
-/
namespace Verif.Svm.Spec
open Verif.Py Verif.Svm

variable {P I T : Type}

/-- The value a call gives to a parameter of LIBSVM, if any: the parameter itself, or, for `C`, `gamma` and `nr_weight`, two to the power of `log2C` or `log2g`, and the length of `weight`. -/
def given (W : Vals P) (key : String) (kw : KW P) : Option P :=
  if key = "log2C" ∨ key = "log2g" ∨ key = "searchlog" then none
  else
    match dget kw key with
    | some v => some v
    | none =>
      if key = "C" then (dget kw "log2C").map W.pow2
      else if key = "gamma" then (dget kw "log2g").map W.pow2
      else if key = "nr_weight" then (dget kw "weight").map W.len
      else none

/-- the arguments of a call -/
def args : Op P I T → Option (KW P)
  | .params kw | .train kw => some kw
  | _ => none

/-- The value of a parameter after a history: given by the last call that says anything about it; the kernel is RBF at the start. -/
def paramAfter (W : Vals P) (key : String) (ops : List (Op P I T)) : Option P :=
  match ((ops.filterMap args).filterMap (given W key)).getLast? with
  | some v => some v
  | none => if key = "kernel_type" then some W.rbf else none

/-- the data set after a history -/
def dataAfter (d0 : List (I × T)) (ops : List (Op P I T)) : List (I × T) :=
  ((ops.filterMap fun | .data d => some d | _ => none).getLast?).getD d0

end Verif.Svm.Spec
