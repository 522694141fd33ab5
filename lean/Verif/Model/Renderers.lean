import Mathlib.Analysis.SpecialFunctions.Trigonometric.Basic
/-
Model of the threads that draw environments: pybrain/rl/environments/simple/renderer.py (SimpleRenderer) and pybrain/rl/environments/cartpole/renderer.py (CartPoleRenderer).

There are two threads: the client, which calls the methods of the renderer one after the other, and the renderer, which runs `_render`. Each read or write of an attribute and each operation on the lock is one step, and a schedule says
which thread makes the next step; a thread that waits for the lock makes none. What `draw` does and the pauses of the renderer are not modelled: a frame is the record of the coordinates that were set.
-/
namespace Verif.Renderers

inductive Thread where
  | client | renderer
deriving DecidableEq, Repr

/-! ### SimpleRenderer -/

namespace Simple

/-- calls of `updateData`, `reset` and `stop` -/
inductive Op (α : Type) where
  | update (x y : α)
  | reset
  | stop

/-- steps of the client -/
inductive Instr (α : Type) where
  | acquire
  | release
  | pushX (x : α)
  | pushY (y : α)
  | newX
  | newY
  | setStop

variable {α : Type}

/-- `updateData`, `reset`, `stop`, simple/renderer.py:30-46 -/
def compile : Op α → List (Instr α)
  | .update x y => [.acquire, .pushX x, .pushY y, .release]
  | .reset => [.acquire, .newX, .newY, .release]
  | .stop => [.acquire, .setStop, .release]

/-- where the renderer is in `_render` -/
inductive Pc (α : Type) where
  | test
  | acquire
  | readX
  | readY (xs : List α)
  | release
  | leave
  | done

/-- the attributes, the rest of the program of the client, the place in `_render`, and the frames that were drawn -/
structure State (α : Type) where
  lock : Option Thread
  pathx : List α
  pathy : List α
  stopRequest : Bool
  client : List (Instr α)
  pc : Pc α
  frames : List (List α × List α)

/-- `__init__` (simple/renderer.py:10-21) and `start`; the client is going to call `ops` -/
def start (ops : List (Op α)) : State α := ⟨none, [], [], false, ops.flatMap compile, .test, []⟩

/-- a step of the client -/
def clientStep (s : State α) : State α :=
  match s.client with
  | [] => s
  | .acquire :: is => if s.lock = none then { s with lock := some .client, client := is } else s
  | .release :: is => { s with lock := none, client := is }
  | .pushX x :: is => { s with pathx := s.pathx ++ [x], client := is }
  | .pushY y :: is => { s with pathy := s.pathy ++ [y], client := is }
  | .newX :: is => { s with pathx := [], client := is }
  | .newY :: is => { s with pathy := [], client := is }
  | .setStop :: is => { s with stopRequest := true, client := is }

/-- a step of `_render`, simple/renderer.py:71-81 -/
def renderStep (s : State α) : State α :=
  match s.pc with
  | .test => if s.stopRequest then { s with pc := .leave } else { s with pc := .acquire }
  | .acquire => if s.lock = none then { s with lock := some .renderer, pc := .readX } else s
  | .readX => { s with pc := .readY s.pathx }
  | .readY xs => { s with frames := s.frames ++ [(xs, s.pathy)], pc := .release }
  | .release => { s with lock := none, pc := .test }
  | .leave => { s with stopRequest := false, pc := .done }
  | .done => s

/-- the steps of a schedule -/
def run (s : State α) (schedule : List Thread) : State α :=
  schedule.foldl (fun s t => match t with
    | .client => clientStep s
    | .renderer => renderStep s) s

end Simple

/-! ### CartPoleRenderer -/

namespace CartPole

/-- what `updateData` is called with -/
structure Data where
  angle : ℝ
  angleVel : ℝ
  pos : ℝ
  posVel : ℝ

/-- what is set for a frame: the colour and left border of the cart, and the ends of the pole -/
structure Frame where
  green : Bool
  boxX : ℝ
  foot : ℝ × ℝ
  tip : ℝ × ℝ

/-- `cartwidth`, `polelength`, cartpole/renderer.py:22-24 -/
noncomputable def cartwidth : ℝ := 1
noncomputable def polelength : ℝ := 0.5

/-- what is drawn first by `drawPlot`, cartpole/renderer.py:41-53 -/
noncomputable def drawPlot (d : Data) : Frame := ⟨false, d.pos - cartwidth / 2, (d.pos, 0), (d.pos + Real.sin d.angle, Real.cos d.angle)⟩

/-- steps of the client -/
inductive Instr where
  | acquire
  | release
  | angle (a : ℝ)
  | angleVel (a : ℝ)
  | pos (p : ℝ)
  | posVel (p : ℝ)

/-- `updateData`, cartpole/renderer.py:29-32: the attributes are set one after the other -/
def compile (d : Data) : List Instr := [.acquire, .angle d.angle, .angleVel d.angleVel, .pos d.pos, .posVel d.posVel, .release]

/-- where the renderer is in the loop of `_render`: the numbers read so far -/
inductive Pc where
  | angle
  | pos
  | box (green : Bool)
  | foot (green : Bool) (boxX : ℝ)
  | tipPos (green : Bool) (boxX foot : ℝ)
  | sin (green : Bool) (boxX foot tipPos : ℝ)
  | cos (green : Bool) (boxX foot tipX : ℝ)

structure State where
  lock : Option Thread
  data : Data
  client : List Instr
  pc : Pc
  frames : List Frame

/-- `__init__` (cartpole/renderer.py:11-27) and `start`; the client is going to call `updateData` with each of `ds` -/
def start (ds : List Data) : State := ⟨none, ⟨0, 0, 0, 0⟩, ds.flatMap compile, .angle, []⟩

/-- a step of the client -/
def clientStep (s : State) : State :=
  match s.client with
  | [] => s
  | .acquire :: is => if s.lock = none then { s with lock := some .client, client := is } else s
  | .release :: is => { s with lock := none, client := is }
  | .angle a :: is => { s with data := { s.data with angle := a }, client := is }
  | .angleVel a :: is => { s with data := { s.data with angleVel := a }, client := is }
  | .pos p :: is => { s with data := { s.data with pos := p }, client := is }
  | .posVel p :: is => { s with data := { s.data with posVel := p }, client := is }

open Classical in
/-- a step of `_render`, cartpole/renderer.py:59-71, while there is no request to stop; the lock is not used -/
noncomputable def renderStep (s : State) : State :=
  match s.pc with
  | .angle => if s.data.angle < 0.05 then { s with pc := .pos } else { s with pc := .box false }
  | .pos => { s with pc := .box (decide (|s.data.pos| < 0.05)) }
  | .box g => { s with pc := .foot g (s.data.pos - cartwidth / 2) }
  | .foot g b => { s with pc := .tipPos g b s.data.pos }
  | .tipPos g b f => { s with pc := .sin g b f s.data.pos }
  | .sin g b f p => { s with pc := .cos g b f (p + polelength * Real.sin s.data.angle) }
  | .cos g b f x => { s with frames := s.frames ++ [⟨g, b, (f, 0), (x, polelength * Real.cos s.data.angle)⟩], pc := .angle }

/-- the steps of a schedule -/
noncomputable def run (s : State) (schedule : List Thread) : State :=
  schedule.foldl (fun s t => match t with
    | .client => clientStep s
    | .renderer => renderStep s) s

end CartPole

end Verif.Renderers
