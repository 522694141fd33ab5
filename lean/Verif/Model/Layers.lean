import Verif.Model.Network
import Mathlib.Analysis.SpecialFunctions.Exp
import Mathlib.Analysis.SpecialFunctions.Log.Basic
import Mathlib.Analysis.SpecialFunctions.Trigonometric.Deriv
import Mathlib.Algebra.BigOperators.Group.Finset.Basic
/-
Model of the layers in pybrain/structure/modules and of the transfer functions in pybrain/tools/functions.py,
over the real numbers. A layer is given by what its `_forwardImplementation` leaves in `outbuf` and what its
`_backwardImplementation` leaves in `inerr` (`outbuf[:] = ...` ignores the old content, `outbuf += ...` adds to it).
Layers without parameters add nothing to `derivs`.
-/
namespace Verif.Net
open Finset

/-- functions.py:48-50, `exp(clip(x, -500, 500))` -/
noncomputable def safeExp (x : ℝ) : ℝ := Real.exp (max (-500) (min 500 x))

/-- functions.py:53-55 -/
noncomputable def sigmoid (x : ℝ) : ℝ := 1 / (1 + safeExp (-x))

/-- functions.py:58-61 -/
noncomputable def sigmoidPrime (x : ℝ) : ℝ := sigmoid x * (1 - sigmoid x)

/-- functions.py:64-67 -/
noncomputable def tanhPrime (x : ℝ) : ℝ := 1 - Real.tanh x * Real.tanh x

/-- functions.py:77-93, one entry -/
noncomputable def expln (x : ℝ) : ℝ := if x < 0 then Real.exp x else Real.log (x + 1) + 1

/-- functions.py:96-112, one entry -/
noncomputable def explnPrime (x : ℝ) : ℝ := if x < 0 then Real.exp x else 1 / (x + 1)

/-- functions.py:7-25, one entry -/
noncomputable def semilinear (x : ℝ) : ℝ := if x < 0 then safeExp x else x + 1

/-- functions.py:28-45, one entry -/
noncomputable def semilinearPrime (x : ℝ) : ℝ := if x < 0 then safeExp x else 1

section
variable {P : Type} (pc : P) (n : Nat)

/-- linearlayer.py:6-13 -/
def linearLayer : Mod P ℝ where
  indim := n
  outdim := n
  pc := pc
  fwd := fun _ inbuf _ => inbuf
  bwdErr := fun _ outerr _ _ _ => outerr
  bwdPar := fun _ _ _ _ _ => 0

/-- sigmoidlayer.py:7-14 -/
noncomputable def sigmoidLayer : Mod P ℝ where
  indim := n
  outdim := n
  pc := pc
  fwd := fun _ inbuf _ => fun j => sigmoid (inbuf j)
  bwdErr := fun _ outerr _ outbuf _ => fun i => outbuf i * (1 - outbuf i) * outerr i
  bwdPar := fun _ _ _ _ _ => 0

/-- tanhlayer.py:8-15 -/
noncomputable def tanhLayer : Mod P ℝ where
  indim := n
  outdim := n
  pc := pc
  fwd := fun _ inbuf _ => fun j => Real.tanh (inbuf j)
  bwdErr := fun _ outerr _ outbuf _ => fun i => (1 - outbuf i ^ 2) * outerr i
  bwdPar := fun _ _ _ _ _ => 0

/-- relulayer.py:5-12 -/
noncomputable def reluLayer : Mod P ℝ where
  indim := n
  outdim := n
  pc := pc
  fwd := fun _ inbuf _ => fun j => inbuf j * (if inbuf j > 0 then 1 else 0)
  bwdErr := fun _ outerr _ _ inbuf => fun i => outerr i * (if inbuf i > 0 then 1 else 0)
  bwdPar := fun _ _ _ _ _ => 0

/-- softsign.py:5-15 -/
noncomputable def softSignLayer : Mod P ℝ where
  indim := n
  outdim := n
  pc := pc
  fwd := fun _ inbuf _ => fun j => inbuf j / (1 + |inbuf j|)
  bwdErr := fun _ outerr _ outbuf _ => fun i => (1 - |outbuf i|) ^ 2 * outerr i
  bwdPar := fun _ _ _ _ _ => 0

/-- softmax.py:10-21 -/
noncomputable def softmaxLayer : Mod P ℝ where
  indim := n
  outdim := n
  pc := pc
  fwd := fun _ inbuf _ => fun j => safeExp (inbuf j) / ∑ k ∈ range n, safeExp (inbuf k)
  bwdErr := fun _ outerr _ _ _ => outerr
  bwdPar := fun _ _ _ _ _ => 0

/-- PartialSoftmaxLayer, softmax.py:24-37: the normalised array is bound to the local name `outbuf` (line 35) and
never written to the buffer, which keeps `safeExp(inbuf)` from line 32. (`size / slicelength` is an integer
division.) -/
noncomputable def partialSoftmaxLayer (_slicelength : Nat) : Mod P ℝ where
  indim := n
  outdim := n
  pc := pc
  fwd := fun _ inbuf _ => fun j => safeExp (inbuf j)
  bwdErr := fun _ outerr _ _ _ => outerr
  bwdPar := fun _ _ _ _ _ => 0

/-- biasunit.py:7-16; the backward implementation is `Module`'s empty one. -/
def biasUnit : Mod P ℝ where
  indim := 0
  outdim := 1
  pc := pc
  fwd := fun _ _ _ => fun _ => 1
  bwdErr := fun _ _ inerr _ _ => inerr
  bwdPar := fun _ _ _ _ _ => 0

/-- MultiplicationLayer, gate.py:13-25, `n` is `outdim` -/
def multiplicationLayer : Mod P ℝ where
  indim := 2 * n
  outdim := n
  pc := pc
  fwd := fun _ inbuf outbuf => fun j => outbuf j + inbuf j * inbuf (n + j)
  bwdErr := fun _ outerr inerr _ inbuf => fun i =>
    if i < n then inerr i + inbuf (n + i) * outerr i else inerr i + inbuf (i - n) * outerr (i - n)
  bwdPar := fun _ _ _ _ _ => 0

/-- GateLayer, gate.py:28-48 -/
noncomputable def gateLayer : Mod P ℝ where
  indim := 2 * n
  outdim := n
  pc := pc
  fwd := fun _ inbuf outbuf => fun j => outbuf j + sigmoid (inbuf j) * inbuf (n + j)
  bwdErr := fun _ outerr inerr _ inbuf => fun i =>
    if i < n then inerr i + sigmoidPrime (inbuf i) * inbuf (n + i) * outerr i
    else inerr i + sigmoid (inbuf (i - n)) * outerr (i - n)
  bwdPar := fun _ _ _ _ _ => 0

/-- DoubleGateLayer, gate.py:51-79 -/
noncomputable def doubleGateLayer : Mod P ℝ where
  indim := 2 * n
  outdim := 2 * n
  pc := pc
  fwd := fun _ inbuf outbuf => fun j =>
    if j < n then outbuf j + sigmoid (inbuf j) * inbuf (n + j)
    else outbuf j + (1 - sigmoid (inbuf (j - n))) * inbuf (n + (j - n))
  bwdErr := fun _ outerr inerr _ inbuf => fun i =>
    if i < n then inerr i + sigmoidPrime (inbuf i) * inbuf (n + i) * outerr i
      - sigmoidPrime (inbuf i) * inbuf (n + i) * outerr (n + i)
    else inerr i + sigmoid (inbuf (i - n)) * outerr (i - n) + (1 - sigmoid (inbuf (i - n))) * outerr (n + (i - n))
  bwdPar := fun _ _ _ _ _ => 0

/-- SwitchLayer, gate.py:82-97 -/
noncomputable def switchLayer : Mod P ℝ where
  indim := n
  outdim := 2 * n
  pc := pc
  fwd := fun _ inbuf outbuf => fun j =>
    if j < n then outbuf j + sigmoid (inbuf j) else outbuf j + (1 - sigmoid (inbuf (j - n)))
  bwdErr := fun _ outerr inerr _ inbuf => fun i =>
    inerr i + sigmoidPrime (inbuf i) * outerr i - sigmoidPrime (inbuf i) * outerr (n + i)
  bwdPar := fun _ _ _ _ _ => 0

end
end Verif.Net
