import Mathlib.Data.Real.Basic
import Mathlib.Data.Nat.Bitwise
/-
Model of pybrain/rl/environments/classic/xor.py: XORTask and XORChainTask.

`counter / 2` is integer division (Python 2) or true division (Python 3); the argument `trueDiv` says which. With true division the
observation is an array of floats, and `&` and `^` raise a TypeError on its entries. Random draws are arguments. Actions are natural numbers.
The attributes `and_task`, `stochasticity`, `reward_cutoff` and `discount` are the fields of `Opts`. `samples` is never changed by these tasks
and stays 0 (episodic.py:20).
-/
namespace Verif.Xor

/-- exceptions -/
inductive Exc where
  | attribute
  | type
deriving DecidableEq, Repr

structure Opts where
  trueDiv : Bool
  andTask : Bool
  stochasticity : ℝ
  cutoff : Int
  discount : Option ℝ

/-- the attributes of XORTask; `obs`: none before the first observation -/
structure Xor where
  r : Int
  counter : Nat
  obs : Option (Nat × Nat)
  /-- the entries of `obs` are floats -/
  float : Bool
  cum : ℝ

/-- `XORTask.__init__`, xor.py:21-23 -/
def create : Xor := { r := 0, counter := 0, obs := none, float := false, cum := 0 }

/-- `XORTask.getObservation`, xor.py:25-31, without the third entry, which is always 1; `draw`: two random bits if `randomorder` -/
def getObservation (o : Opts) (draw : Option (Nat × Nat)) (x : Xor) : (Nat × Nat) × Xor :=
  match draw with
  | some d => (d, { x with obs := some d, float := false, counter := x.counter + 1 })
  | none =>
    let d := (x.counter % 2, x.counter / 2 % 2)
    (d, { x with obs := some d, float := o.trueDiv, counter := x.counter + 1 })

/-- the test of xor.py:34-35 and 71-72 -/
def right (o : Opts) (obs : Nat × Nat) (action : Nat) : Bool :=
  (o.andTask && action == (obs.1 &&& obs.2)) || (!o.andTask && action == (obs.1 ^^^ obs.2))

/-- `getReward`, xor.py:42-46, `u` is `random()` -/
noncomputable def getReward (o : Opts) (u : ℝ) (r : Int) : ℝ := if u < o.stochasticity then -r else r

/-- `addReward`, episodic.py:42-48, with `samples` = 0 -/
noncomputable def addReward (o : Opts) (u : ℝ) (r : Int) (cum : ℝ) : ℝ :=
  match o.discount with
  | some g => if g ≠ 0 then cum + g ^ 0 * getReward o u r else cum + getReward o u r
  | none => cum + getReward o u r

/-- `XORTask.performAction`, xor.py:33-40 -/
noncomputable def performAction (o : Opts) (u : ℝ) (x : Xor) (action : Nat) : Except Exc Xor :=
  match x.obs with
  | none => .error .attribute
  | some obs =>
    if x.float then .error .type
    else
      let r : Int := if right o obs action then 1 else -1
      .ok { x with r := r, cum := addReward o u r x.cum }

/-- `reset` is inherited, episodic.py:28-31; `self.env` does not exist, because `__init__` does not call that of Task -/
def reset (_x : Xor) : Except Exc Xor := .error .attribute

/-- the attributes of XORChainTask -/
structure Chain where
  r : Int
  state : Nat
  obs : Option (Nat × Nat)
  cum : ℝ

/-- `XORChainTask.__init__`, xor.py:62-64 -/
def createChain : Chain := { r := 0, state := 0, obs := none, cum := 0 }

/-- `XORChainTask.getObservation`, xor.py:66-68 -/
def observeChain (x : Chain) : (Nat × Nat) × Chain :=
  let d := (x.state % 2, x.state / 2 % 2)
  (d, { x with obs := some d })

/-- `XORChainTask.performAction`, xor.py:70-78 -/
noncomputable def performChain (o : Opts) (u : ℝ) (x : Chain) (action : Nat) : Except Exc Chain :=
  match x.obs with
  | none => .error .attribute
  | some obs =>
    if o.trueDiv then .error .type
    else if right o obs action then
      let r : Int := -1 + 2 * (if (x.state : Int) ≥ o.cutoff then 1 else 0)
      .ok { x with r := r, state := min (x.state + 1) 3, cum := addReward o u r x.cum }
    else .ok { x with r := -1, state := 0, cum := addReward o u (-1) x.cum }

end Verif.Xor
