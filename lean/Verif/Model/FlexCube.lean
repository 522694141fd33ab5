import Mathlib.Analysis.SpecialFunctions.Trigonometric.Basic
import Mathlib.Analysis.SpecialFunctions.Pow.Real

/-!
# The flexible cube (`flexcube/environment.py`, `flexcube/sensors.py`, `flexcube/tasks.py`)

Eight mass points, connected by springs, above a floor.  Numbers are real numbers.  Arrays of shape
`(8, 3)` are functions of two indices, and so are the arrays of shape `(64, 1)` and `(64, 3)`, whose
rows belong to pairs of points.  Actions have twelve entries.

Simplifications.  The renderer and its server are left out (`render=False`).  A quotient with the
divisor zero, in Python nan with a warning, is zero; it occurs in the sensor `Target` only.
-/

namespace Verif.FlexCube

/-- A vector in space. -/
abbrev Vec := Fin 3 → ℝ

/-- The names of the sensors (`flexcube/sensors.py:55-131`). -/
inductive Kind where
  | edgesReal
  | edgesSumReal
  | edgesTarget
  | verticesContact
  | verticesMinHight
  | distToOrigin
  | target
  | time
  deriving DecidableEq, Repr

/-- The attributes of the environment (`flexcube/environment.py:19-41`). -/
structure State where
  sensors : List Kind
  target : Vec
  center : Vec
  pos : Fin 8 → Vec
  vel : Fin 8 → Vec
  spring : Fin 8 → Fin 8 → ℝ
  dif : Fin 8 → Fin 8 → Vec
  dist : Fin 8 → Fin 8 → ℝ
  action : Fin 12 → ℝ
  startHight : ℝ
  step : ℕ
  count : ℕ

/-- `dists[0]` (`flexcube/environment.py:21`). -/
def side : ℝ := 20
/-- `gravVect` (`flexcube/environment.py:22`). -/
def grav : Vec := ![0, -100, 0]
/-- `d` (`flexcube/environment.py:27`). -/
def stiffness : ℝ := 60
/-- `dt` (`flexcube/environment.py:28`). -/
noncomputable def dt : ℝ := 0.02
/-- `dumping` (`flexcube/environment.py:30`). -/
noncomputable def dumping : ℝ := 0.4
/-- `fraktMin` (`flexcube/environment.py:31`). -/
noncomputable def fraktMin : ℝ := 0.7
/-- `fraktMax` (`flexcube/environment.py:32`). -/
noncomputable def fraktMax : ℝ := 1.3
/-- `minAkt` (`flexcube/environment.py:33`). -/
noncomputable def minAkt : ℝ := side * fraktMin
/-- `maxAkt` (`flexcube/environment.py:34`). -/
noncomputable def maxAkt : ℝ := side * fraktMax

/-- `range(2)`. -/
def two : List (Fin 2) := [0, 1]

/-- The number of a point with three coordinates, `c1` and `c2`
(`flexcube/environment.py:50`, `54`, `62-63`). -/
def point (i j k : Fin 2) : Fin 8 := ⟨i.val * 4 + j.val * 2 + k.val, by omega⟩

/-- `abs(i - i2)`. -/
def absDiff (i j : Fin 2) : ℕ := max i.val j.val - min i.val j.val

/-- `setEdges` (`flexcube/environment.py:47-63`). -/
def edges : List (Fin 8 × Fin 8) :=
  two.flatMap fun i => two.flatMap fun j => two.flatMap fun k =>
    two.flatMap fun i2 => two.flatMap fun j2 => two.flatMap fun k2 =>
      if absDiff i i2 + absDiff j j2 + absDiff k k2 = 1 ∧ i ≤ i2 ∧ j ≤ j2 ∧ k ≤ k2 then
        [(point i j k, point i2 j2 k2)]
      else []

/-- The vectors between all points (`flexcube/environment.py:74-76`, `149-151`). -/
def differences (pos : Fin 8 → Vec) : Fin 8 → Fin 8 → Vec := fun i j => pos i - pos j

/-- The distances of all points (`flexcube/environment.py:77`, `152`). -/
noncomputable def distances (dif : Fin 8 → Fin 8 → Vec) : Fin 8 → Fin 8 → ℝ :=
  fun i j => Real.sqrt (∑ c, dif i j c ^ 2)

/-- The position of a point at the start (`flexcube/environment.py:68-71`). -/
noncomputable def startPos (h : ℝ) : Fin 8 → Vec := fun p =>
  ![(p.val / 4 : ℕ) * side - side / 2, (p.val / 2 % 2 : ℕ) * side - side / 2 + h,
    (p.val % 2 : ℕ) * side - side / 2]

/-- `reset`; the centre of gravity is left as it is (`flexcube/environment.py:65-80`). -/
noncomputable def reset (s : State) : State :=
  let pos := startPos s.startHight
  let dif := differences pos
  let spring := distances dif
  { s with action := fun _ => 1 * side, pos := pos, vel := 0, dif := dif, spring := spring, dist := spring, step := 0 }

/-- `normAct` (`flexcube/environment.py:103-104`). -/
noncomputable def normAct (a : Fin 12 → ℝ) : Fin 12 → ℝ := fun k => min (max (a k) minAkt) maxAkt

/-- An entry of the matrix of springs is set. -/
def setSpring (m : Fin 8 → Fin 8 → ℝ) (i j : Fin 8) (x : ℝ) : Fin 8 → Fin 8 → ℝ :=
  fun i' j' => if i' = i ∧ j' = j then x else m i' j'

/-- The loop of `act` from the edge with the number `count` on (`flexcube/environment.py:106-111`). -/
def actLoop (a : ℕ → ℝ) : List (Fin 8 × Fin 8) → ℕ → (Fin 8 → Fin 8 → ℝ) → (Fin 8 → Fin 8 → ℝ)
  | [], _, m => m
  | e :: es, count, m =>
      actLoop a es (count + 1) (setSpring (setSpring m e.1 e.2 (a count)) e.2 e.1 (a count))

/-- The entries of an action by their number. -/
def entry (a : Fin 12 → ℝ) (k : ℕ) : ℝ := if h : k < 12 then a ⟨k, h⟩ else 0

/-- `act` (`flexcube/environment.py:106-111`). -/
def act (s : State) (a : Fin 12 → ℝ) : State :=
  { s with spring := actLoop (entry a) edges 0 s.spring }

/-- The change of the velocity of a point by the springs (`flexcube/environment.py:116-130`). -/
noncomputable def push (s : State) (i : Fin 8) : Vec :=
  ∑ j, fun c => s.dif i j c / (s.dist i j + 0.0000000001) *
    ((s.spring i j - s.dist i j) * stiffness * dt)

/-- The velocities after springs, gravity and damping (`flexcube/environment.py:122-136`). -/
noncomputable def freeVel (s : State) (i : Fin 8) : Vec :=
  let v := s.vel i + push s i
  let v := v + dt • grav
  v - (dumping * dt) • v

/-- The positions without the floor (`flexcube/environment.py:139`). -/
noncomputable def freePos (s : State) (i : Fin 8) : Vec := s.pos i + dt • freeVel s i

open Classical in
/-- A position after the collision with the floor (`flexcube/environment.py:142-145`). -/
noncomputable def landPos (p : Vec) : Vec := if p 1 < 0 then Function.update p 1 0 else p

open Classical in
/-- A velocity after the collision with the floor (`flexcube/environment.py:142-145`). -/
noncomputable def landVel (p v : Vec) : Vec := if p 1 < 0 then v * ![0, -1, 0] else v

/-- `euler` (`flexcube/environment.py:113-152`). -/
noncomputable def euler (s : State) : State :=
  let pos := fun i => landPos (freePos s i)
  let vel := fun i => landVel (freePos s i) (freeVel s i)
  let dif := differences pos
  { s with count := s.count + 1, pos := pos, vel := vel, center := fun c => (∑ i, pos i c) / 8, dif := dif, dist := distances dif }

/-- `performAction` (`flexcube/environment.py:86-91`). -/
noncomputable def performAction (s : State) (a : Fin 12 → ℝ) : State :=
  let a := normAct a
  let s := euler (act { s with action := a } a)
  { s with step := s.step + 1 }

/-- `__init__` (`flexcube/environment.py:12-41`). -/
noncomputable def newEnv : State :=
  let s : State :=
    { sensors := [.edgesReal], target := ![-80, 0, 0], center := 0, pos := fun _ _ => 1, vel := 0,
      spring := fun _ _ => 1, dif := fun _ _ => 0, dist := fun _ _ => 0, action := 0,
      startHight := 10, step := 0, count := 0 }
  let s := euler (act { reset s with count := 0 } fun _ => 20)
  { s with step := 0 }

/-! ### Sensors -/

/-- `defaultSensor.edges` (`flexcube/sensors.py:44`). -/
def edgeRows : List ℕ := [1, 2, 4, 11, 13, 19, 22, 31, 37, 38, 47, 55]

/-- A row of an array of shape `(64, 1)`. -/
def row (m : Fin 8 → Fin 8 → ℝ) (r : ℕ) : ℝ :=
  if h : r < 64 then m ⟨r / 8, by omega⟩ ⟨r % 8, by omega⟩ else 0

/-- `dist[edges]` (`flexcube/sensors.py:44`, `61`). -/
def edgeLengths (s : State) : List ℝ := edgeRows.map (row s.dist)

/-- `centerOfGrav` of a sensor: on the floor (`flexcube/sensors.py:49-50`). -/
def onFloor (v : Vec) : Vec := Function.update v 1 0

/-- The length of a vector. -/
noncomputable def len (v : Vec) : ℝ := Real.sqrt (∑ c, v c ^ 2)

open Classical in
/-- An angle of the sensor `Target` (`flexcube/sensors.py:112-123`). -/
noncomputable def angle (d t : Vec) : ℝ :=
  let norm := len t * len d
  let cosA := (d 0 * t 0 + d 2 * t 2) / norm
  let sinA := (d 0 * t 2 - d 2 * t 0) / norm
  if cosA < 0 then (if sinA > 0 then 1 else -1) else sinA

/-- The third entry of what `getSensor` returns (`flexcube/sensors.py:57-131`). -/
noncomputable def readSensor (s : State) : Kind → List ℝ
  | .edgesReal => (edgeLengths s).map (· / 30)
  | .edgesSumReal => [(edgeLengths s).sum - 240]
  | .edgesTarget => (List.ofFn s.action).map (· / 30)
  | .verticesContact => (List.ofFn fun i : Fin 8 => s.pos i 1).map fun y => min (max (1 - y) 0) 1
  | .verticesMinHight => [(List.ofFn fun i : Fin 8 => s.pos i 1).foldl min (s.pos 0 1)]
  | .distToOrigin => [len (onFloor s.center) * 0.00125]
  | .target =>
      let t := s.target - onFloor s.center
      len t * 0.00625 ::
        ([0, 1, 4, 5] : List (Fin 8)).map fun i => angle (s.pos i - onFloor s.center) t
  | .time => [Real.sin (s.step / 4), Real.sin (s.step / 8), Real.sin (s.step / 16)]

/-! ### Tasks -/

/-- The ways in which calls fail. -/
inductive Fault where
  | attributeError
  deriving DecidableEq, Repr

/-- The classes of tasks (`flexcube/tasks.py:24-204`). -/
inductive Class where
  | noReward
  | grow
  | walk
  | rollingUp
  | walkDirection
  | targetTask
  | jump
  deriving DecidableEq, Repr

/-- The attributes of a task; `action` is not there before the first reset
(`flexcube/tasks.py:26-41`). -/
structure Task where
  cls : Class
  env : State
  epiStep : ℕ
  reward : ℝ
  rawReward : ℝ
  edgeL : List ℝ
  obsSensors : List Kind
  rewardSensor : Option Kind
  inDim : ℕ
  maxSpeed : ℝ
  epiLen : ℕ
  maxReward : ℝ
  action : Option (Fin 12 → ℝ)
  cumreward : ℝ
  samples : ℕ

/-- `dif` (`flexcube/tasks.py:38`). -/
noncomputable def taskDif : ℝ := (fraktMax - fraktMin) * side

/-- `getObservation` (`flexcube/tasks.py:52-66`). -/
noncomputable def getObservation (t : Task) : List ℝ × Task :=
  let output := t.env.sensors.flatMap fun k =>
    (t.obsSensors.filter (· = k)).flatMap fun _ => readSensor t.env k
  let raw := t.env.sensors.foldl
    (fun r k => if some k = t.rewardSensor then (readSensor t.env k).headD 0 else r) t.rawReward
  let edgeL := t.env.sensors.foldl
    (fun e k => if k = .edgesReal then readSensor t.env k else e) t.edgeL
  (output, { t with rawReward := raw, edgeL := edgeL })

/-- The reward sensor of a class (`flexcube/tasks.py:33`, `100`, `111`, `135`, `185`). -/
def rewardSensorOf : Class → Option Kind
  | .noReward => none
  | .grow => some .edgesSumReal
  | .walk => some .distToOrigin
  | .rollingUp => some .distToOrigin
  | .walkDirection => some .target
  | .targetTask => some .target
  | .jump => some .verticesMinHight

/-- The observed sensors of a class (`flexcube/tasks.py:32`, `101`, `112`, `136`, `186`). -/
def obsSensorsOf : Class → List Kind
  | .noReward => [.edgesReal]
  | .grow => [.edgesReal, .edgesTarget]
  | .walk => [.edgesTarget, .edgesReal, .verticesContact, .time]
  | .rollingUp => [.edgesTarget, .edgesReal, .verticesContact, .time]
  | .walkDirection => [.edgesTarget, .edgesReal, .verticesContact, .time, .target]
  | .targetTask => [.edgesTarget, .edgesReal, .verticesContact, .time, .target]
  | .jump => [.edgesTarget, .edgesReal, .verticesContact]

/-- The length of the episodes (`flexcube/tasks.py:41`, `105`, `116`, `129`, `142`, `161`, `190`). -/
def epiLenOf : Class → ℕ
  | .noReward => 1
  | .grow => 200
  | .walk => 2000
  | .rollingUp => 500
  | .walkDirection => 2000
  | .targetTask => 6000
  | .jump => 500

/-- The largest change of an action (`flexcube/tasks.py:39`, `192`). -/
noncomputable def maxSpeedOf : Class → ℝ
  | .jump => taskDif / 10
  | _ => taskDif / 30

/-- `NoRewardTask.__init__` (`flexcube/tasks.py:26-41`). -/
noncomputable def newNoReward (cls : Class) (env : State) : Task :=
  let t : Task :=
    { cls := cls, env := env, epiStep := 0, reward := 0, rawReward := 0, edgeL := [], obsSensors := [.edgesReal],
      rewardSensor := none, inDim := 0, maxSpeed := maxSpeedOf cls, epiLen := epiLenOf cls, maxReward := 0,
      action := none, cumreward := 0, samples := 0 }
  let r := getObservation t
  { r.2 with inDim := r.1.length }

/-- The constructors of the tasks: the length of the observation is taken before the sensors of the
environment are set.  The last two classes call `hasRenderInterface`, which the environment does not
have (`flexcube/tasks.py:98-105`, `109-116`, `125-129`, `133-143`, `159-162`, `183-192`). -/
noncomputable def newTask (cls : Class) (env : State) : Except Fault Task :=
  match cls with
  | .noReward => .ok (newNoReward .noReward env)
  | .walkDirection => .error .attributeError
  | .targetTask => .error .attributeError
  | cls =>
      let t := newNoReward cls env
      let t := { t with rewardSensor := rewardSensorOf cls, obsSensors := obsSensorsOf cls }
      let r := getObservation t
      let t := { r.2 with inDim := r.1.length }
      let t := { t with env := { t.env with sensors := obsSensorsOf cls ++ (rewardSensorOf cls).toList } }
      .ok (if cls = .rollingUp then { t with env := reset { t.env with startHight := 200 } } else t)

/-- `getPain`, with the clipped lengths of the edges (`flexcube/tasks.py:71-73`). -/
noncomputable def getPain (t : Task) : ℝ × Task :=
  let edgeL := t.edgeL.map fun e => min (max e 1) 4
  ((edgeL.map fun e => (e - 1) ^ 2).sum, { t with edgeL := edgeL })

open Classical in
/-- `getReward` of the classes that can be constructed
(`flexcube/tasks.py:47-50`, `118-121`, `194-199`). -/
noncomputable def getReward (t : Task) : ℝ × Task :=
  let t := if t.cls = .jump ∧ t.epiStep < t.epiLen ∧ t.rawReward > t.maxReward then
    { t with maxReward := t.rawReward } else t
  let p := getPain t
  let r := match t.cls with
    | .walk => if t.epiStep < t.epiLen then -p.1 else t.rawReward * 800 - p.1
    | .rollingUp => if t.epiStep < t.epiLen then -p.1 else t.rawReward * 800 - p.1
    | .jump => if t.epiStep < t.epiLen then -p.1 else t.maxReward - p.1
    | _ => t.rawReward - p.1
  (r, { p.2 with reward := r })

/-- `performAction` (`flexcube/tasks.py:75-83`, `episodic.py:39-51` without a discount). -/
noncomputable def Task.perform (t : Task) (a : Fin 12 → ℝ) : Except Fault Task :=
  let t := { t with epiStep := t.epiStep + 1 }
  match t.action with
  | none => .error .attributeError
  | some old =>
      let a := fun k => (a k + 1) / 2 * taskDif + fraktMin * side
      let a := fun k => min (max (a k) (old k - t.maxSpeed)) (old k + t.maxSpeed)
      let t := { t with env := performAction t.env a, samples := t.samples + 1 }
      let r := getReward t
      .ok { r.2 with cumreward := r.2.cumreward + r.1, action := some a }

/-- `reset` (`flexcube/tasks.py:85-91`, `201-203`). -/
noncomputable def Task.reset (t : Task) : Task :=
  { t with
    reward := 0, rawReward := 0, env := Verif.FlexCube.reset (Verif.FlexCube.reset t.env), action := some fun _ => side, epiStep := 0,
    cumreward := 0, samples := 0, maxReward := if t.cls = .jump then 0 else t.maxReward }

/-- `isFinished` (`flexcube/tasks.py:93-94`). -/
def Task.isFinished (t : Task) : Bool := decide (t.epiStep ≥ t.epiLen)

/-- The steps of an episode with the actions of an agent: observation and action in turn
(`episodic.py:65-66`). -/
noncomputable def steps : List (Fin 12 → ℝ) → Task → Except Fault Task
  | [], t => .ok t
  | a :: as, t => do
      let t ← (getObservation t).2.perform a
      steps as t

end Verif.FlexCube
