import Verif.Model.DataSet
import Mathlib.Analysis.SpecialFunctions.Trigonometric.Basic
/-
Model of pybrain/rl/environments/cartpole/fast_version: cartpole.cpp, cartpolewrap.pyx and cartpoleenv.py (FastCartPoleTask).

Numbers are reals (doubles idealised). The state of the simulation is a set of global variables of the C program; arrays that are not initialised hold arbitrary
numbers (`Junk`). `noise` is zero (cartpole.cpp:65), so the sensor noise vanishes. Texts (`__str__`, verbose) are not modelled.
-/
namespace Verif.FastCart
open Verif.DataSet (Err)
open Real

abbrev Arr := Fin 6 → ℝ

/-! ### cartpole.cpp -/

/-- `one_degree`, `twelve_degrees`, `thirty_six_degrees`, cartpole.cpp:43-47 -/
noncomputable def oneDegree : ℝ := 0.0174532
noncomputable def twelveDegrees : ℝ := 0.2094384
noncomputable def thirtySixDegrees : ℝ := 0.628329

/-- masses and (half) lengths of the poles, cartpole.cpp:33-36, 62-64; friction, gravity, mass of the cart and time step, cartpole.cpp:29-32, 39 -/
noncomputable def m1 : ℝ := 0.1
noncomputable def l1 : ℝ := 0.5
noncomputable def m2 : ℝ := 0.1 / 10
noncomputable def l2 : ℝ := 0.1 / 2
noncomputable def mup : ℝ := 0.000002
noncomputable def grav : ℝ := -9.8
noncomputable def mc : ℝ := 1
noncomputable def tau : ℝ := 0.01

/-- the global variables, cartpole.cpp:8-20 -/
structure World where
  markov : Bool
  numPoles : Nat
  maxsteps : Int
  state : Arr
  dydx : Arr
  steps : Int

/-- cartpole.cpp:158-161 (`FORCE_MAG` is 10) -/
noncomputable def cutHigh (f : ℝ) : ℝ := if f > 10 then 10 else f
noncomputable def cutLow (f : ℝ) : ℝ := if f < -10 then -10 else f

/-- cartpole.cpp:164-167 -/
noncomputable def pushRight (f : ℝ) : ℝ := if f ≥ 0 ∧ f < 0.0390625 then 0.0390625 else f
noncomputable def pushLeft (f : ℝ) : ℝ := if f < 0 ∧ f > -0.0390625 then -0.0390625 else f

/-- the force, cartpole.cpp:151-167 -/
noncomputable def force (action : ℝ) : ℝ := pushLeft (pushRight (cutLow (cutHigh (action * 10))))

/-- `temp`, cartpole.cpp:175, 184 -/
noncomputable def temp (m l om : ℝ) : ℝ := mup * om / (l * m)

/-- `fi`, cartpole.cpp:176-177, 185-186 -/
noncomputable def fi (m l th om : ℝ) : ℝ := l * m * om * om * sin th + 0.75 * m * cos th * (temp m l om + grav * sin th)

/-- `mi`, cartpole.cpp:178, 187 -/
noncomputable def mi (m th : ℝ) : ℝ := m * (1 - 0.75 * cos th * cos th)

/-- `step`, cartpole.cpp:140-199: it writes the accelerations into `derivs` -/
noncomputable def step (np : Nat) (action : ℝ) (st derivs : Arr) : Arr :=
  let fi2 := if np > 1 then fi m2 l2 (st 4) (st 5) else 0
  let mi2 := if np > 1 then mi m2 (st 4) else 0
  let a := (force action + fi m1 l1 (st 2) (st 3) + fi2) / (mi m1 (st 2) + mi2 + mc)
  let al1 := -0.75 * (a * cos (st 2) + grav * sin (st 2) + temp m1 l1 (st 3)) / l1
  let al2 := -0.75 * (a * cos (st 4) + grav * sin (st 4) + temp m2 l2 (st 5)) / l2
  fun i => if i = 1 then a else if i = 3 then al1 else if i = 5 ∧ np > 1 then al2 else derivs i

/-- the velocities, e.g. cartpole.cpp:217-219 -/
def velocities (d y : Arr) : Arr := fun i => if i = 0 then y 1 else if i = 2 then y 3 else if i = 4 then y 5 else d i

/-- contents of the local arrays `dym`, `dyt`, `yt` before they are written, cartpole.cpp:206 -/
structure Junk where
  dym : Arr
  dyt : Arr
  yt : Arr

/-- `i <= vars`, cartpole.cpp:207-210 -/
def used (np : Nat) (i : Fin 6) : Prop := i.1 ≤ (if np > 1 then 5 else 3)

instance (np : Nat) (i : Fin 6) : Decidable (used np i) := inferInstanceAs (Decidable (_ ≤ _))

/-- `rk4(f, y, dydx, y)`, cartpole.cpp:202-234: the result is written over `y` -/
noncomputable def rk4 (np : Nat) (f : ℝ) (y dydx : Arr) (j : Junk) : Arr :=
  let hh := tau * 0.5
  let h6 := tau / 6
  let yt : Arr := fun i => if used np i then y i + hh * dydx i else j.yt i
  let dyt := velocities (step np f yt j.dyt) yt
  let yt : Arr := fun i => if used np i then y i + hh * dyt i else yt i
  let dym := velocities (step np f yt j.dym) yt
  let yt : Arr := fun i => if used np i then y i + tau * dym i else yt i
  let dym : Arr := fun i => if used np i then dym i + dyt i else dym i
  let dyt := velocities (step np f yt dyt) yt
  fun i => if used np i then y i + h6 * (dydx i + dyt i + 2 * dym i) else y i

/-- one of the two integration steps of `doAction`, cartpole.cpp:299-303 and 306-310 -/
noncomputable def integrate (w : World) (a : ℝ) (j : Junk) : World :=
  let d := step w.numPoles a w.state (velocities w.dydx w.state)
  { w with state := rk4 w.numPoles a w.state d j, dydx := d }

/-- `doAction`, cartpole.cpp:282-326 -/
noncomputable def doAction (j j' : Junk) (a : ℝ) (w : World) : World :=
  let w' := integrate (integrate w a j) a j'
  { w' with steps := w'.steps + 1 }

/-- `reset`, cartpole.cpp:124-131 -/
noncomputable def reset (w : World) : World :=
  { w with state := fun i => if i = 2 then 4.0156035 * oneDegree else 0, dydx := fun _ => 0, steps := 0 }

/-- `initCartPole`, cartpole.cpp:58-76 -/
noncomputable def init (w : World) (markov : Bool) (numPoles : Nat) (maxsteps : Int) : World :=
  reset { w with markov := markov, numPoles := numPoles, maxsteps := maxsteps }

/-- `outsideBounds`, cartpole.cpp:329-346 -/
def Outside (w : World) : Prop :=
  if w.numPoles > 1 then |w.state 0| > 2.4 ∨ |w.state 2| > thirtySixDegrees ∨ |w.state 4| > thirtySixDegrees
  else |w.state 0| > 2.4 ∨ |w.state 2| > twelveDegrees

/-- `trialFinished`, cartpole.cpp:350-359 -/
def Finished (w : World) : Prop := Outside w ∨ w.steps > w.maxsteps

open Classical in
/-- `getReward`, cartpole.cpp:363-368 -/
noncomputable def getR (w : World) : ℝ := if Outside w then -1 else 0

/-- `getObs()`, cartpolewrap.pyx:37-47 with `getObservationDimension` and `getObservation`, cartpole.cpp:80-101, 238-277: all but the bias. For other numbers of poles the dimension is 0. -/
noncomputable def getObs (w : World) : List ℝ :=
  let s := w.state
  if w.numPoles = 1 then
    if w.markov then [(s 1 / 10 - 0.01) * 10, s 2 / twelveDegrees, 10 * s 3 / 5, (s 0 / 2.4 - 0.01) * 10]
    else [s 2 / twelveDegrees, 10 * (s 0 / 2.4 - 0.01)]
  else if w.numPoles = 2 then
    if w.markov then [10 * (s 1 / 10 - 0.01), s 2 / twelveDegrees, 10 * s 3 / 5, s 4 / thirtySixDegrees, s 5 / 16, 10 * (s 0 / 2.4 - 0.01)]
    else [s 2 / twelveDegrees, s 4 / 0.52, 10 * (s 0 / 2.4 - 0.01)]
  else []

/-! ### cartpoleenv.py -/

/-- the attributes of a FastCartPoleTask, cartpoleenv.py:22-48. `samples` and `discount` are those of EpisodicTask (episodic.py:20-23). -/
structure Task where
  markov : Bool
  numPoles : Nat
  extraObservations : Bool
  extraRandoms : Nat
  desiredValue : Int
  cumreward : ℝ
  samples : Nat
  discount : Option ℝ

/-- `reset`, cartpoleenv.py:68-72 -/
noncomputable def taskReset (t : Task) (w : World) : Task × World := ({ t with cumreward := 0 }, reset w)

/-- `__init__`, cartpoleenv.py:33-48. `self.__single` is `None` when it is read, since only instances get another value. -/
noncomputable def newTask (numPoles : Nat) (markov extraObservations : Bool) (extraRandoms : Nat) (maxSteps : Int) (discount : Option ℝ) (w : World) : Task × World :=
  taskReset { markov := markov, numPoles := numPoles, extraObservations := extraObservations, extraRandoms := extraRandoms, desiredValue := maxSteps,
              cumreward := 0, samples := 0, discount := discount } (init w markov numPoles maxSteps)

/-- `outdim`, cartpoleenv.py:74-82 -/
def outdim (t : Task) : Nat :=
  (1 + t.numPoles) * (if t.markov then 2 else 1) + (if t.extraObservations then 2 * t.numPoles else 0) + t.extraRandoms

/-- `getReward`, cartpoleenv.py:84-88 -/
noncomputable def getReward (w : World) : ℝ := 1 + getR w

/-- numpy's `resize` of an array: cut, or fill up with zeros -/
def resize (d : Nat) (l : List ℝ) : List ℝ := l.take d ++ List.replicate (d - l.length) 0

/-- a Python index -/
def place (len : Nat) (i : Int) : Except Err Nat :=
  let k := if i < 0 then (len : Int) + i else i
  if 0 ≤ k ∧ k < len then .ok k.toNat else .error .indexError

/-- `obs[i]` -/
def get (l : List ℝ) (i : Int) : Except Err ℝ :=
  match place l.length i with
  | .error e => .error e
  | .ok k => .ok (l.getD k 0)

/-- `obs[i] = v` -/
def put (l : List ℝ) (i : Int) (v : ℝ) : Except Err (List ℝ) :=
  match place l.length i with
  | .error e => .error e
  | .ok k => .ok (l.set k v)

/-- the coordinates of a pole, cartpoleenv.py:107-108 and 114-115: at the places `i` and `i - 1`, counted from the number of random observations -/
noncomputable def tip (er : Nat) (i : Int) (len angle cartpos : ℝ) (obs : List ℝ) : Except Err (List ℝ) := do
  let obs ← put obs (i + er) (len * cos angle + cartpos)
  put obs (i - 1 + er) (len * sin angle + cartpos)

/-- cartpoleenv.py:101-115 -/
noncomputable def extras (t : Task) (obs : List ℝ) : Except Err (List ℝ) := do
  let cartpos ← get obs (-1)
  let angle1 ← get obs (if t.markov then 1 else 0)
  let obs ← tip t.extraRandoms (-1) 0.1 angle1 cartpos obs
  if t.numPoles = 2 then do
    let angle2 ← get obs (if t.markov then 3 else 1)
    tip t.extraRandoms (-3) 0.05 angle2 cartpos obs
  else pure obs

/-- `getObservation`, cartpoleenv.py:95-122; `draws` are the values of `randn` -/
noncomputable def getObservation (t : Task) (w : World) (draws : List ℝ) : Except Err (List ℝ) := do
  let obs := resize (outdim t) (getObs w)
  let obs ← if t.extraObservations then extras t obs else pure obs
  pure (if t.extraRandoms > 0 then obs.take (obs.length - t.extraRandoms) ++ draws.take t.extraRandoms else obs)

/-- `performAction`, cartpoleenv.py:124-128, with `addReward`, episodic.py:46-52 -/
noncomputable def performAction (j j' : Junk) (a : ℝ) (t : Task) (w : World) : Task × World :=
  let w' := doAction j j' a w
  let r := match t.discount with
    | none => getReward w'
    | some γ => if γ = 0 then getReward w' else γ ^ t.samples * getReward w'
  ({ t with cumreward := t.cumreward + r }, w')

/-- some actions one after the other -/
noncomputable def performAll (t : Task) (w : World) : List (ℝ × Junk × Junk) → Task × World
  | [] => (t, w)
  | (a, j, j') :: as => performAll (performAction j j' a t w).1 (performAction j j' a t w).2 as

end Verif.FastCart
