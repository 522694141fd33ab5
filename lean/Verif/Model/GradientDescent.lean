import Mathlib.Algebra.Order.Field.Basic
import Mathlib.Data.Sign.Defs
/-
Model of `GradientDescent` (pybrain/auxiliary/gradientdescent.py:9-94). Numbers are elements of an ordered field (floats idealised), the parameter and
gradient arrays are functions on `n` coordinates (a gradient of another length is refused by the assertion in line 57).
`NaturalGradient` and `IRpropPlus` are modelled in Model/NaturalGradient.lean.
-/
namespace Verif.Descent

variable {K : Type} [Field K] [LinearOrder K] {n : Nat}

/-- the settings, gradientdescent.py:11-34 -/
structure Settings (K : Type) where
  alphadecay : K
  momentum : K
  deltamax : K
  deltamin : K
  deltanull : K
  etaplus : K
  etaminus : K

/-- the state in the momentum mode (`rprop` false) -/
structure Momentum (K : Type) (n : Nat) where
  values : Fin n → K
  momentumvector : Fin n → K
  alpha : K

/-- `init` with `rprop` false, gradientdescent.py:44-52, after `alpha` has been set -/
def Momentum.init (values : Fin n → K) (alpha : K) : Momentum K n := { values := values, momentumvector := fun _ => 0, alpha := alpha }

/-- `__call__` with `rprop` false, gradientdescent.py:81-92 -/
def Momentum.call (c : Settings K) (s : Momentum K n) (gradient : Fin n → K) : Momentum K n :=
  let m1 := fun i => s.momentumvector i * c.momentum
  let m2 := fun i => m1 i + s.alpha * gradient i
  { values := fun i => s.values i + m2 i, momentumvector := m2, alpha := s.alpha * c.alphadecay }

/-- the state in the rprop mode -/
structure Rprop (K : Type) (n : Nat) where
  values : Fin n → K
  lastgradient : Fin n → K
  theta : Fin n → K

/-- `init` with `rprop` true, gradientdescent.py:44-49 -/
def Rprop.init (c : Settings K) (values : Fin n → K) : Rprop K n := { values := values, lastgradient := fun _ => 0, theta := fun _ => 0 + c.deltanull }

/-- `__call__` with `rprop` true, gradientdescent.py:60-79 and 92. (`gradient_arr[idx] = 0` in line 71 also changes the caller's array.) -/
def Rprop.call (c : Settings K) (s : Rprop K n) (gradient : Fin n → K) : Rprop K n :=
  let values := fun i => s.values i + (SignType.sign (gradient i) : K) * s.theta i
  let dirSwitch := fun i => s.lastgradient i * gradient i
  let theta1 := fun i => if dirSwitch i > 0 then s.theta i * c.etaplus else s.theta i
  let theta2 := fun i => if dirSwitch i < 0 then theta1 i * c.etaminus else theta1 i
  let gradient := fun i => if dirSwitch i < 0 then 0 else gradient i
  { values := values, lastgradient := gradient, theta := fun i => min (max (theta2 i) c.deltamin) c.deltamax }

end Verif.Descent
