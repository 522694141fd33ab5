import Mathlib.Data.Matrix.Mul

/-!
# Sensors and actuators of the ODE environment (`ode/environment.py`, `ode/sensors.py`, `ode/actuators.py`)

The physics engine is an argument: a type of states of the world, the readings of joints and bodies
in a state, and a step that takes the torques added since the last step (the engine clears them in
each step).  The tree of the XODE nodes is a tree whose nodes may hold a joint or a body; the look-up
of nodes by name, which is part of the `xode` package, is a function argument.

Simplifications.  Files have no `<sensors>` section, are loaded successfully (see `load` for the
failures) and give the same world each time they are loaded.  Rendering, textures, collisions and the
geometry list are left out.  Number of values, joints and values of a sensor are only changed by the
environment (`setNumValues` and `setValues` are not called from outside).
-/

namespace Verif.Ode

/-- Exceptions. -/
inductive Fault where
  | typeError
  | attributeError
  | assertion
  | valueError
  | sizeError
  | systemExit
  deriving DecidableEq, Repr

/-- The classes of joints that `sensors.py:81-103` and `actuators.py:62-76` distinguish. -/
inductive JKind where
  | ball
  | universal
  | amotor (axes : Nat)
  | hinge
  | hinge2
  | slider
  | other
  deriving DecidableEq, Repr

/-- A joint object. -/
structure Joint where
  id : Nat
  kind : JKind
  deriving DecidableEq, Repr

/-- What `getODEObject()` of a node returns. -/
inductive Obj where
  | joint (j : Joint)
  | body (id : Nat)
  | none
  deriving DecidableEq, Repr

/-- A node of the XODE tree. -/
inductive Node where
  | mk (obj : Obj) (children : List Node)

mutual
/-- `_parseJoints(node)` (`ode/sensors.py:60-68`, `ode/actuators.py:40-48`). -/
def Node.joints : Node → List Obj
  | .mk (.joint j) cs => .joint j :: Node.jointsAll cs
  | .mk (.body _) cs => Node.jointsAll cs
  | .mk .none cs => Node.jointsAll cs

/-- The loop over the children (`ode/sensors.py:67-68`). -/
def Node.jointsAll : List Node → List Obj
  | [] => []
  | c :: cs => c.joints ++ Node.jointsAll cs
end

mutual
/-- `_parseBodies(node)` (`ode/sensors.py:193-201`). -/
def Node.bodies : Node → List Obj
  | .mk (.body i) cs => .body i :: Node.bodiesAll cs
  | .mk (.joint _) cs => Node.bodiesAll cs
  | .mk .none cs => Node.bodiesAll cs

/-- The loop over the children (`ode/sensors.py:200-201`). -/
def Node.bodiesAll : List Node → List Obj
  | [] => []
  | c :: cs => c.bodies ++ Node.bodiesAll cs
end

/-- The root of a loaded file: the tree, and `namedChild(name).getODEObject()`, which is `none` for a
KeyError. -/
structure Root where
  tree : Node
  named : String → Option Obj

/-- A call of `addTorque` or `addTorques` of a joint. -/
abbrev Call (K : Type) := Joint × List K

/-- The physics engine: readings in a state `W` of the world, and the step. -/
structure Phys (W K : Type) where
  /-- `getAngle(i)`, `getAngle()`, `getAngle1()` and `getAngle2()` -/
  angle : W → Nat → Nat → K
  /-- the rates of the angles -/
  rate : W → Nat → Nat → K
  /-- `getPosition()` of a slider -/
  slide : W → Nat → K
  /-- `getPositionRate()` of a slider -/
  slideRate : W → Nat → K
  /-- `getPosition()` of a body -/
  pos : W → Nat → Fin 3 → K
  /-- the rotation of a body -/
  rot : W → Nat → Matrix (Fin 3) (Fin 3) K
  /-- the square root -/
  sqrt : K → K
  /-- `world.step(dt)` with the torques added since the last step -/
  step : W → List (Call K) → W

/-- The classes of sensors. -/
inductive SKind (K : Type) where
  | joints
  | rates
  | distTo (body : String) (point : Fin 3 → K)
  | bodyDist (body1 body2 : String)
  | bodies
  | someJoints (names : List String)
  | someRates (names : List String)
  | someBodies (names : List String)

/-- A sensor object. -/
structure Sensor (K : Type) where
  name : String
  kind : SKind K
  num : Nat
  values : List K
  objs : List Obj

section
variable {W K : Type} [CommRing K]

/-- The constructors (`ode/sensors.py:24-28`, `57-59`, `109-111`, `139-145`, `160-167`, `189-191`,
`224-228`, `258-262`, `292-296`). -/
def newSensor (name : String) (k : SKind K) : Sensor K :=
  match k with
  | .distTo _ _ => ⟨name, k, 1, [0], []⟩
  | .bodyDist _ _ => ⟨name, k, 1, [0], []⟩
  | .someBodies _ => ⟨name, k, 0, [0], []⟩
  | _ => ⟨name, k, 0, [], []⟩

/-- The values of one joint in `JointSensor._update` (`ode/sensors.py:83-103`). -/
def jointAngles (ph : Phys W K) (w : W) : Obj → List K
  | .joint j =>
    match j.kind with
    | .ball => []
    | .universal => []
    | .amotor n => (List.range n).map (ph.angle w j.id)
    | .hinge => [ph.angle w j.id 0]
    | .hinge2 => [ph.angle w j.id 0, ph.angle w j.id 1]
    | .slider => [ph.slide w j.id]
    | .other => []
  | _ => []

/-- The values of one joint in `JointVelocitySensor._update` (`ode/sensors.py:115-135`). -/
def jointRates (ph : Phys W K) (w : W) : Obj → List K
  | .joint j =>
    match j.kind with
    | .ball => []
    | .universal => []
    | .amotor n => (List.range n).map (ph.rate w j.id)
    | .hinge => [ph.rate w j.id 0]
    | .hinge2 => [ph.rate w j.id 0, ph.rate w j.id 1]
    | .slider => [ph.slideRate w j.id]
    | .other => []
  | _ => []

/-- `getPosRelPoint(p)` of a body: the point in the coordinates of the body. -/
def posRelPoint (ph : Phys W K) (w : W) (i : Nat) (p : Fin 3 → K) : Fin 3 → K :=
  (ph.rot w i).transpose.mulVec (p - ph.pos w i)

/-- `norm` of a vector. -/
def norm (ph : Phys W K) (v : Fin 3 → K) : K := ph.sqrt (∑ k, v k ^ 2)

/-- `setValues` (`ode/sensors.py:42-45`). -/
def Sensor.setValues (s : Sensor K) (vs : List K) : Except Fault (Sensor K) :=
  if vs.length ≠ s.num then .error .sizeError else .ok { s with values := vs }

/-- The loop of `BodyPositionSensor._update` (`ode/sensors.py:214-217`); joints have no
`getPosition`. -/
def bodyPositions (ph : Phys W K) (w : W) : List Obj → Except Fault (List K)
  | [] => .ok []
  | .body i :: os =>
    match bodyPositions ph w os with
    | .ok vs => .ok ([ph.pos w i 0, ph.pos w i 1, ph.pos w i 2] ++ vs)
    | .error e => .error e
  | _ :: _ => .error .attributeError

/-- `_update` of the sensors (`ode/sensors.py:81-103`, `113-135`, `147-154`, `169-177`, `214-217`).
The calls of `warnings.warn` with a text in the place of the category are TypeErrors. -/
def Sensor.update (ph : Phys W K) (r : Root) (w : W) (s : Sensor K) : Except Fault (Sensor K) :=
  match s.kind with
  | .joints | .someJoints _ => .ok { s with values := s.objs.flatMap (jointAngles ph w) }
  | .rates | .someRates _ => .ok { s with values := s.objs.flatMap (jointRates ph w) }
  | .distTo b p =>
    match r.named b with
    | some (.body i) => s.setValues [norm ph (posRelPoint ph w i p)]
    | some _ => .error .attributeError
    | none => .error .typeError
  | .bodyDist b1 b2 =>
    match r.named b1, r.named b2 with
    | some (.body i), some (.body j) => s.setValues [norm ph (posRelPoint ph w i (ph.pos w j))]
    | none, _ => .error .typeError
    | _, none => .error .typeError
    | _, _ => .error .attributeError
  | .bodies | .someBodies _ =>
    match bodyPositions ph w s.objs with
    | .ok vs => .ok { s with values := vs }
    | .error e => .error e

/-- `_parseJoints` and `_parseBodies` of the sensors with names (`ode/sensors.py:230-237`,
`264-271`, `298-305`): the objects found, and the TypeError of `warnings.warn` (the call of
`sys.exit` is not reached). -/
def lookup (r : Root) : List String → List Obj × Option Fault
  | [] => ([], none)
  | n :: ns =>
    match r.named n with
    | some o => (o :: (lookup r ns).1, (lookup r ns).2)
    | none => ([], some .typeError)

/-- The objects of a sensor that is connected. -/
def Sensor.find (r : Root) (s : Sensor K) : List Obj × Option Fault :=
  match s.kind with
  | .joints | .rates => (r.tree.joints, none)
  | .bodies => (r.tree.bodies, none)
  | .someJoints ns | .someRates ns | .someBodies ns => lookup r ns
  | .distTo _ _ | .bodyDist _ _ => ([], none)

/-- The sensors that read one value only. -/
def SKind.isDist : SKind K → Bool
  | .distTo _ _ => true
  | .bodyDist _ _ => true
  | _ => false

/-- `_connect` of the sensors (`ode/sensors.py:33-34`, `70-79`, `203-212`, `239-249`, `273-283`,
`307-317`): the sensor as it is left, and the exception. -/
def Sensor.connect (ph : Phys W K) (r : Root) (w : W) (s : Sensor K) : Sensor K × Option Fault :=
  if s.kind.isDist then (s, none)
  else
    let found := s.find r
    let s1 := { s with objs := found.1 }
    match found.2 with
    | some e => (s1, some e)
    | none =>
      match s1.update ph r w with
      | .ok s2 => ({ s2 with num := s2.values.length }, none)
      | .error e => (s1, some e)

/-- The classes of actuators. -/
inductive AKind where
  | joints
  | someJoints (names : List String)
  | copy (names : List String)

/-- An actuator object. -/
structure Actuator where
  name : String
  kind : AKind
  num : Nat
  objs : List Obj

/-- The constructors (`ode/actuators.py:13-16`, `36-38`, `114-117`, `145-148`). -/
def newActuator (name : String) (k : AKind) : Actuator := ⟨name, k, 0, []⟩

/-- The number of values of one joint in `_countValues` (`ode/actuators.py:62-76`). -/
def countOf : Obj → Nat
  | .joint j =>
    match j.kind with
    | .amotor n => n
    | .hinge => 1
    | .hinge2 => 2
    | _ => 0
  | _ => 0

/-- `_countValues` (`ode/actuators.py:60-76`). -/
def countValues (os : List Obj) : Nat := (os.map countOf).sum

/-- `_connect` of the actuators (`ode/actuators.py:50-58`, `128-136`, `159-167`). -/
def Actuator.connect (r : Root) (a : Actuator) : Actuator × Option Fault :=
  match a.kind with
  | .joints => ({ a with objs := r.tree.joints, num := countValues r.tree.joints }, none)
  | .someJoints ns =>
    match (lookup r ns).2 with
    | some e => ({ a with objs := (lookup r ns).1 }, some e)
    | none => ({ a with objs := (lookup r ns).1, num := countValues (lookup r ns).1 }, none)
  | .copy ns =>
    match (lookup r ns).2 with
    | some e => ({ a with objs := (lookup r ns).1 }, some e)
    | none => ({ a with objs := (lookup r ns).1, num := 1 }, none)

/-- The torques of a motor: as many values of the action as it has axes, filled up to three with
zeros; `(t1, t2, t3) = torques` fails if there are more than three (`ode/actuators.py:87-95`). -/
def motorTorques (n : Nat) (vs : List K) : List K := vs ++ List.replicate (3 - n) 0

/-- The loop of `JointActuator._update` (`ode/actuators.py:80-107`): the calls made, and the
exception.  The check of the length of the action before the loop rules out an IndexError. -/
def applyJoints : List Obj → List K → List (Call K) × Option Fault
  | [], _ => ([], none)
  | .joint j :: os, act =>
    match j.kind with
    | .amotor n =>
      if 3 < n then ([], some .valueError)
      else ((j, motorTorques n (act.take n)) :: (applyJoints os (act.drop n)).1,
        (applyJoints os (act.drop n)).2)
    | .hinge => ((j, act.take 1) :: (applyJoints os (act.drop 1)).1, (applyJoints os (act.drop 1)).2)
    | .hinge2 => ((j, act.take 2) :: (applyJoints os (act.drop 2)).1, (applyJoints os (act.drop 2)).2)
    | _ => applyJoints os act
  | _ :: os, act => applyJoints os act

/-- The loop of `CopyJointActuator._update` (`ode/actuators.py:170-200`). -/
def applyCopy : List Obj → K → List (Call K) × Option Fault
  | [], _ => ([], none)
  | .joint j :: os, x =>
    match j.kind with
    | .amotor n =>
      if 3 < n then ([], some .valueError)
      else ((j, (motorTorques n (List.replicate n x)).map (· * 10)) :: (applyCopy os x).1,
        (applyCopy os x).2)
    | .hinge => ((j, [x]) :: (applyCopy os x).1, (applyCopy os x).2)
    | .hinge2 => ((j, [x, x]) :: (applyCopy os x).1, (applyCopy os x).2)
    | _ => applyCopy os x
  | _ :: os, x => applyCopy os x

/-- `_update(action)` of the actuators (`ode/actuators.py:78-107`, `169-200`). -/
def Actuator.update (a : Actuator) (act : List K) : List (Call K) × Option Fault :=
  if act.length ≠ a.num then ([], some .assertion)
  else
    match a.kind with
    | .copy _ => applyCopy a.objs (act.headD 0)
    | _ => applyJoints a.objs act

/-- A file: the objects it creates and the state of the world. -/
structure File (W : Type) where
  root : Root
  world : W
  hasWorld : Bool
  hasSpace : Bool

/-- The environment. `forces` are the torques added since the last step. -/
structure Env (W K : Type) where
  file : File W
  root : Root
  world : W
  forces : List (Call K)
  sensors : List (Sensor K)
  excluded : List String
  actuators : List Actuator
  stepsPerAction : Nat
  counter : Nat

/-- `loadXODE(filename)` up to the parsing of bodies (`ode/environment.py:175-198`).  In Python 3 a
`filter` object has no items; in Python 2 a missing tag ends the program. -/
def load (python3 : Bool) (f : File W) : Except Fault (Root × W) :=
  if python3 then .error .typeError
  else if f.hasWorld = false then .error .systemExit
  else if f.hasSpace = false then .error .systemExit
  else .ok (f.root, f.world)

/-- `ODEEnvironment()` and `loadXODE(filename)` (`ode/environment.py:31-62`, `175-213`, `265-267`). -/
def newEnv (f : File W) (steps : Nat) : Env W K := ⟨f, f.root, f.world, [], [], [], [], steps, 0⟩

/-- `loadXODE(filename)` of a further file (`ode/environment.py:175-213`, `265-267`): the list of the
sensors is emptied, the actuators are kept as they are. -/
def Env.loadXODE (e : Env W K) (f : File W) : Env W K :=
  { e with file := f, root := f.root, world := f.world, forces := [], sensors := [] }

/-- `addSensor` (`ode/environment.py:143-150`). -/
def Env.addSensor (ph : Phys W K) (e : Env W K) (name : String) (k : SKind K) : Env W K × Option Fault :=
  let c := (newSensor name k).connect ph e.root e.world
  ({ e with sensors := e.sensors ++ [c.1] }, c.2)

/-- `addActuator` (`ode/environment.py:152-159`). -/
def Env.addActuator (e : Env W K) (name : String) (k : AKind) : Env W K × Option Fault :=
  let c := (newActuator name k).connect e.root
  ({ e with actuators := e.actuators ++ [c.1] }, c.2)

/-- `excludeSensors` (`ode/environment.py:342-343`). -/
def Env.excludeSensors (e : Env W K) (l : List String) : Env W K := { e with excluded := e.excluded ++ l }

/-- `getSensors` (`ode/environment.py:345-351`). -/
def Env.getSensors (e : Env W K) : List K :=
  (e.sensors.filter fun s => !e.excluded.contains s.name).flatMap (·.values)

/-- `getSensorByName` (`ode/environment.py:359-366`). -/
def Env.getSensorByName (e : Env W K) (name : String) : List K :=
  match e.sensors.find? fun s => s.name == name with
  | some s => s.values
  | none => []

/-- `indim` (`ode/environment.py:368-373`). -/
def Env.indim (e : Env W K) : Nat := (e.actuators.map (·.num)).sum

/-- `outdim` (`ode/environment.py:379-381`). -/
def Env.outdim (e : Env W K) : Nat := e.getSensors.length

/-- The loop over the sensors in `step` (`ode/environment.py:514-515`). -/
def updateAll (ph : Phys W K) (r : Root) (w : W) : List (Sensor K) → List (Sensor K) × Option Fault
  | [] => ([], none)
  | s :: ss =>
    match s.update ph r w with
    | .ok s' => (s' :: (updateAll ph r w ss).1, (updateAll ph r w ss).2)
    | .error e => (s :: ss, some e)

/-- `step` (`ode/environment.py:499-525`). -/
def Env.step (ph : Phys W K) (e : Env W K) : Env W K × Option Fault :=
  let w := ph.step e.world e.forces
  let u := updateAll ph e.root w e.sensors
  let e1 := { e with world := w, forces := [], sensors := u.1 }
  match u.2 with
  | some f => (e1, some f)
  | none => ({ e1 with counter := e.counter + 1 }, none)

/-- The loop of the steps in `performAction` (`ode/environment.py:391-392`). -/
def Env.steps (ph : Phys W K) : Nat → Env W K → Env W K × Option Fault
  | 0, e => (e, none)
  | n + 1, e =>
    match (e.step ph).2 with
    | some f => ((e.step ph).1, some f)
    | none => Env.steps ph n (e.step ph).1

/-- The loop over the actuators in `performAction` (`ode/environment.py:385-389`): the calls made and
the exception; the rest of the action is `action[pointer:]`. -/
def applyAll : List Actuator → List K → List (Call K) × Option Fault
  | [], _ => ([], none)
  | a :: as, act =>
    let u := a.update (act.take a.num)
    match u.2 with
    | some f => (u.1, some f)
    | none => (u.1 ++ (applyAll as (act.drop a.num)).1, (applyAll as (act.drop a.num)).2)

/-- `performAction` (`ode/environment.py:383-392`). -/
def Env.performAction (ph : Phys W K) (e : Env W K) (act : List K) : Env W K × Option Fault :=
  let u := applyAll e.actuators act
  let e1 := { e with forces := e.forces ++ u.1 }
  match u.2 with
  | some f => (e1, some f)
  | none => Env.steps ph e.stepsPerAction e1

/-- The loop that connects the sensors again (`ode/environment.py:281-282`). -/
def connectAll (ph : Phys W K) (r : Root) (w : W) : List (Sensor K) → List (Sensor K) × Option Fault
  | [] => ([], none)
  | s :: ss =>
    let c := s.connect ph r w
    match c.2 with
    | some e => (c.1 :: ss, some e)
    | none => (c.1 :: (connectAll ph r w ss).1, (connectAll ph r w ss).2)

/-- The loop that connects the actuators again (`ode/environment.py:283-284`). -/
def connectActuators (r : Root) : List Actuator → List Actuator × Option Fault
  | [] => ([], none)
  | a :: as =>
    let c := a.connect r
    match c.2 with
    | some e => (c.1 :: as, some e)
    | none => (c.1 :: (connectActuators r as).1, (connectActuators r as).2)

/-- `reset` (`ode/environment.py:76-79`, `281-284`). -/
def Env.reset (ph : Phys W K) (e : Env W K) : Env W K × Option Fault :=
  let cs := connectAll ph e.file.root e.file.world e.sensors
  let e1 := { e with root := e.file.root, world := e.file.world, forces := [], sensors := cs.1 }
  match cs.2 with
  | some f => (e1, some f)
  | none =>
    let ca := connectActuators e.file.root e.actuators
    let e2 := { e1 with actuators := ca.1 }
    match ca.2 with
    | some f => (e2, some f)
    | none => ({ e2 with counter := 0 }, none)

/-- The calls of a user of the environment. -/
inductive Op (W K : Type) where
  | load (f : File W)
  | addSensor (name : String) (k : SKind K)
  | addActuator (name : String) (k : AKind)
  | exclude (names : List String)
  | action (act : List K)
  | step
  | reset

/-- One call. -/
def Env.op (ph : Phys W K) (e : Env W K) : Op W K → Env W K × Option Fault
  | .load f => (e.loadXODE f, none)
  | .addSensor n k => e.addSensor ph n k
  | .addActuator n k => e.addActuator n k
  | .exclude ns => (e.excludeSensors ns, none)
  | .action a => e.performAction ph a
  | .step => e.step ph
  | .reset => e.reset ph

/-- A sequence of calls, up to the first exception. -/
def Env.run (ph : Phys W K) : Env W K → List (Op W K) → Env W K × Option Fault
  | e, [] => (e, none)
  | e, o :: os =>
    match (e.op ph o).2 with
    | some f => ((e.op ph o).1, some f)
    | none => Env.run ph (e.op ph o).1 os

end

end Verif.Ode
