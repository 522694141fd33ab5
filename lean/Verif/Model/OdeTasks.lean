import Mathlib.Analysis.SpecialFunctions.Trigonometric.DerivHyp
import Mathlib.Algebra.Order.Field.Rat

/-!
# Tasks in the ODE environment (`ode/tasks/johnnie.py`, `ode/tasks/ccrl.py`, `ode/instances/ccrl.py`)

Modelled: the counting of the episodes, the controller that turns actions into torques, the
perturbations of gravity, the placing of the objects, the rewards of the standing and jumping tasks.
The rewards of the simulation are arguments.  The division of integers differs
between Python 2 and 3, both are modelled.  The environment is the one of Johnnie or CCRL after its construction, its
other behaviour is that of `Verif.Model.Ode`.
-/

namespace Verif.OdeTasks

/-- Exceptions. -/
inductive Fault where
  | indexError
  | valueError
  deriving DecidableEq, Repr

/-! ### Episodes -/

/-- The counters of a task. -/
structure JTask (K : Type) where
  count : Nat
  epiLen : Nat
  incLearn : Nat
  history : List K
  cumreward : K
  samples : Nat

section
variable {K : Type} [AddCommMonoid K]

/-- `res` (`ode/tasks/johnnie.py:51-55`, `ode/tasks/ccrl.py:97-102`). -/
def JTask.res (t : JTask K) : JTask K :=
  { t with count := 0, incLearn := t.incLearn + 1, history := t.history ++ [t.cumreward] }

/-- `isFinished` (`ode/tasks/johnnie.py:42-49`, `ode/tasks/ccrl.py:88-95`). -/
def JTask.isFinished (t : JTask K) : Bool × JTask K :=
  if t.count > t.epiLen then (true, t.res) else (false, { t with count := t.count + 1 })

/-- `reset` of an episodic task (`environments/episodic.py:27-33`). -/
def JTask.reset (t : JTask K) : JTask K := { t with cumreward := 0, samples := 0 }

/-- `performAction` of an episodic task without discount (`environments/episodic.py:39-51`). -/
def JTask.performAction (t : JTask K) (reward : K) : JTask K :=
  { t with cumreward := t.cumreward + reward, samples := t.samples + 1 }

/-- The loop of an episode (`environments/episodic.py:65-66`) with the rewards of its actions; `none`
if the fuel does not suffice. -/
def episode : Nat → (Nat → K) → JTask K → Option (JTask K)
  | 0, _, _ => none
  | fuel + 1, r, t =>
    if (t.isFinished).1 then some t.isFinished.2
    else episode fuel (fun i => r (i + 1)) (t.isFinished.2.performAction (r 0))

end

/-! ### The controller -/

/-- The angle that an action demands (`ode/tasks/johnnie.py:37`, `ode/tasks/ccrl.py:83`). -/
noncomputable def target (lo hi a : ℝ) : ℝ := (a + 1) / 2 * (hi - lo) + lo

/-- The torque of a joint (`ode/tasks/johnnie.py:37-38`). -/
noncomputable def torque (maxPower rel lo hi a angle speed : ℝ) : ℝ :=
  Real.tanh ((target lo hi a - angle - speed) * 16) * maxPower * rel

/-- The torque of a joint in the CCRL tasks (`ode/tasks/ccrl.py:83-84`). -/
noncomputable def torqueCCRL (maxPower rel lo hi a angle speed : ℝ) : ℝ :=
  Real.tanh ((target lo hi a - angle - 9 / 10 * speed * rel) * 16) * maxPower * rel

/-! ### Perturbations of gravity -/

/-- The gravity vectors (`ode/tasks/johnnie.py:90-92`). -/
inductive Gravity where
  | backward
  | standard
  | forward
  deriving DecidableEq, Repr

/-- `disturb` of `RStandingTask` after its count has become `c` (`ode/tasks/johnnie.py:87-89`,
`ode/tasks/johnnie.py:104-110`); `d`
is the value of `getDisturb`.  `env.reset()` sets the standard gravity again
(`ode/environment.py:76-89`). -/
def disturb (d : ℚ) (c : Nat) (g : Gravity) : Gravity :=
  let h1 : ℚ := 4000 / 4
  let h2 : ℚ := 4000 / 2
  let h3 : ℚ := 3 * 4000 / 4
  let g := if (c : ℚ) = h1 then .backward else g
  let g := if (c : ℚ) = h1 + d then .standard else g
  let g := if (c : ℚ) = h2 then .standard else g
  let g := if (c : ℚ) = h3 then .forward else g
  if (c : ℚ) = h3 + d then .standard else g

/-- The gravity in an episode after the count has become `c`. -/
def gravityAt (d : ℚ) : Nat → Gravity
  | 0 => .standard
  | c + 1 => disturb d (c + 1) (gravityAt d c)

/-- `scipy.clip`. -/
def clip {K : Type} [LinearOrder K] (x lo hi : K) : K := min (max x lo) hi

/-- `getDisturb` of `RStandingTask` (`ode/tasks/johnnie.py:112-113`). -/
def disturbR : ℚ := 50

/-- `getDisturb` of `RobStandingTask` in Python 3 (`ode/tasks/johnnie.py:118-119`). -/
def disturbRob (incLearn : Nat) : ℚ := clip (10 + (incLearn : ℚ) / 50) 0 50

/-- `getDisturb` of `RobustStandingTask` in Python 3 (`ode/tasks/johnnie.py:124-125`). -/
def disturbRobust (incLearn : Nat) : ℚ := clip ((incLearn : ℚ) / 200) 0 50

/-- `getDisturb` of `RobStandingTask` in Python 2, where the division is integral
(`ode/tasks/johnnie.py:118-119`). -/
def disturbRob2 (incLearn : Nat) : ℚ := clip (10 + ((incLearn / 50 : Nat) : ℚ)) 0 50

/-- `getDisturb` of `RobustStandingTask` in Python 2 (`ode/tasks/johnnie.py:124-125`). -/
def disturbRobust2 (incLearn : Nat) : ℚ := clip ((incLearn / 200 : Nat) : ℚ) 0 50

/-! ### Rewards -/

/-- The sensors of an environment: names and values. -/
abbrev Sensors := List (String × List ℚ)

/-- `getSensorByName` (`ode/environment.py:359-366`). -/
def byName (ss : Sensors) (name : String) : List ℚ :=
  match ss.find? fun s => s.1 == name with
  | some s => s.2
  | none => []

/-- `reading[1]`. -/
def second (l : List ℚ) : Except Fault ℚ :=
  match l[1]? with
  | some x => .ok x
  | none => .error .indexError

/-- The names of the sensors in `StandingTask` (`ode/instances/johnnie.py:14-15`,
`ode/tasks/johnnie.py:62-65`). -/
def standingNames : List String := ["JointSensor", "JointVelocitySensor", "footLPos", "footRPos", "bodyPos", "headPos"]

/-- The names of the sensors in `JumpingTask` (`ode/tasks/johnnie.py:132-135`): the names of sensors
without names are generated from the class and a counter (`utilities.py:226-228`). -/
def jumpingNames (a b c d : Nat) : List String :=
  ["JointSensor", "JointVelocitySensor", "SpecificBodyPositionSensor-" ++ toString a, "SpecificBodyPositionSensor-" ++ toString b,
    "SpecificBodyPositionSensor-" ++ toString c, "SpecificBodyPositionSensor-" ++ toString d]

/-- `getReward` of `StandingTask` (`ode/tasks/johnnie.py:75-80`). -/
def standingReward (epiLen : Nat) (ss : Sensors) : Except Fault ℚ :=
  match second (byName ss "headPos") with
  | .ok h => .ok (clip (h / epiLen) (-14) 4)
  | .error e => .error e

/-- `getReward` of `JumpingTask` (`ode/tasks/johnnie.py:147-156`): the reward and the largest height. -/
def jumpingReward (count epiLen : Nat) (maxHight : ℚ) (ss : Sensors) : Except Fault (ℚ × ℚ) :=
  match second (byName ss "SpecificBodyPositionSensor8") with
  | .ok r =>
    let m := if r > maxHight then r else maxHight
    .ok (if count = epiLen then m else 0, m)
  | .error e => .error e

/-- `getReward` of `StandingUpTask` (`ode/tasks/johnnie.py:172-180`). -/
def standingUpReward (count epiLen : Nat) (ss : Sensors) : Except Fault ℚ :=
  if count < 800 then .ok 0
  else
    match second (byName ss "SpecificBodyPositionSensor8") with
    | .ok h => .ok (clip (h / ((epiLen : ℚ) - 800)) (-14) 4)
    | .error e => .error e

/-! ### Places of the objects in the CCRL tasks -/

/-- The task and the environment: the count, the perturbation for the next loading of the file and
the perturbation with which the file was loaded. -/
structure Place (V : Type) where
  count : Nat
  pert : V
  placed : V

section
variable {V : Type}

/-- `CCRLEnvironment.reset` (`ode/instances/ccrl.py:134-136`, `ode/instances/ccrl.py:117-121`): the
file is loaded with the current perturbation; `after` is the perturbation that is set then. -/
def Place.reset (after : V) (s : Place V) : Place V := { s with placed := s.pert, pert := after }

/-- One of the tests in `isFinished` (`ode/tasks/ccrl.py:185-196`). -/
def Place.cut (after : V) (perts : Nat → V) (c k : Nat) (s : Place V) : Place V :=
  if c = k * 1000 + 1 then { s.reset after with pert := perts k } else s

/-- `isFinished` of `CCRLGlasVarTask` with 5000 steps (`ode/tasks/ccrl.py:177-198`). -/
def Place.isFinished (after : V) (perts : Nat → V) (s : Place V) : Bool × Place V :=
  if s.count > 5000 then (true, { s with count := 0 })
  else
    let c := s.count
    let s := if c = 1 then { s with pert := perts 0 } else s
    let s := s.cut after perts c 1
    let s := s.cut after perts c 2
    let s := s.cut after perts c 3
    let s := s.cut after perts c 4
    (false, { s with count := c + 1 })

/-- `n` calls of `isFinished`. -/
def Place.calls (after : V) (perts : Nat → V) : Nat → Place V → Place V
  | 0, s => s
  | n + 1, s => (Place.calls after perts n s).isFinished after perts |>.2

/-- A whole episode: reset, and 5002 calls of `isFinished`. -/
def Place.episode (after : V) (perts : Nat → V) (s : Place V) : Place V := Place.calls after perts 5002 (s.reset after)

end

/-- The flag of the table and the reward of `CCRLGlasTask` (`ode/tasks/ccrl.py:125-135`); `dis` and
`nig` are the terms for the distance and the orientation.  The branch that would clear the flag
(`ode/tasks/ccrl.py:129`) sets a local variable. -/
def glasReward (epiLen glasSum tableSum : Nat) (dis nig flag : ℚ) : ℚ × ℚ :=
  let grip := if glasSum ≥ 2 then 1000 else 0
  let flag := if tableSum > 0 then -1 else flag
  ((10 + grip + nig + dis + flag) / epiLen, flag)

/-- The counts at which `getReward` of `CCRLGlasVarTask` gives the large reward
(`ode/tasks/ccrl.py:215`). -/
def bonusCount (count : Nat) : Bool :=
  count == 5000 || count == 1000 || count == 2000 || count == 3000 || count == 4000

/-- `_near_callback` of `CCRLEnvironment` for a pair of geoms that have names
(`ode/instances/ccrl.py:57-70`): what is added to `tableSum` and `glasSum`; `n` is the number of
contacts.  The list of passing pairs is that of `Verif.Model.OdeConfig`. -/
def ccrlContacts (name1 name2 : List Char) (n : Nat) : Nat × Nat :=
  let isObject (g : List Char) : Bool := g.take (g.length - 2) == "objectP".toList
  let isHand (g : List Char) : Bool := g.take (g.length - 1) == "pressLeft".toList
  let isPlate (g : List Char) : Bool := g == "plate".toList
  let t1 := if isPlate name1 && !isObject name2 then n else 0
  let g1 := if isObject name2 && isHand name1 && decide (0 < n) then 1 else 0
  let t2 := if isPlate name2 && !isObject name1 then n else 0
  let g2 := if isObject name1 && isHand name2 && decide (0 < n) then 1 else 0
  (t1 + t2, g1 + g2)

/-- `performAction` of `CCRLTask` up to the controller (`ode/tasks/ccrl.py:77-80`): the action is
changed in place, so what the caller holds and what `oldAction` holds is the changed array.  `near` is
the sum of the distances of the hand from the object; `none` is the `IndexError` of a short action. -/
def graspReflex (near : ℚ) (action : List ℚ) : Option (List ℚ) :=
  if 15 < action.length then some (action.set 15 (if |near| < 2 then 1 else -1)) else none

end Verif.OdeTasks
