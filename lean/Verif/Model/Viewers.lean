import Mathlib.Analysis.SpecialFunctions.Trigonometric.Basic
/-
Model of what the viewers of the flexible cube and of the ship make of the messages of their environments: `drawIdleScene` of pybrain/rl/environments/flexcube/viewer.py and of pybrain/rl/environments/shipsteer/viewer.py, with the messages of
flexcube/environment.py and shipsteer/shipsteer.py as they pass through pybrain/tools/networking/udpconnection.py.

A text is represented by the value of which it is the `repr`. Messages fit into the buffer of the client; lost messages are those that do not arrive in time. Numbers are real numbers. The drawing itself, pictures and pauses are left out, and so is
the attribute `target` of the cube's viewer, which never changes.
-/
namespace Verif.Viewers

/-- Python values; `r` is the text "r", `text v` the text `repr(v)`, `none` is `None` -/
inductive Val (A : Type) where
  | none
  | r
  | num (x : ℝ)
  | arr (a : A)
  | text (v : Val A)
  | list (l : List (Val A))

/-- contains an array outside of texts -/
def Val.hasArray {A : Type} : Val A → Bool
  | .arr _ => true
  | .list l => l.attach.any fun v => v.1.hasArray
  | _ => false
decreasing_by
  have := List.sizeOf_lt_of_mem v.2
  simp only [Val.list.sizeOf_spec]
  omega

/-- `send` and the client's `listen`, udpconnection.py:85-90, 108-126: `repr` and `eval`, which does not know the name `array`; failures give `None` -/
def listen {A : Type} : Option (Val A) → Val A
  | some v => if v.hasArray then .none else v
  | Option.none => .none

/-- `eval` in the cube's viewer, which knows `array`; `Option.none` is an exception -/
def eval {A : Type} : Val A → Option (Val A)
  | .text v => some v
  | _ => Option.none

/-- messages of the cube, flexcube/environment.py:81-84, 161-163 -/
inductive CubeMsg (A : Type) where
  | update (pos center : A)
  | reset
  | lost

def CubeMsg.sent {A : Type} : CubeMsg A → Option (Val A)
  | .update pos center => some (.text (.list [.arr pos, .arr center]))
  | .reset => some (.list [.r, .r])
  | .lost => Option.none

structure Cube (A : Type) where
  points : Val A
  center : Val A

/-- flexcube/viewer.py:59-60, with the arrays `ones` for the points and `c₀` for the centre -/
def Cube.start {A : Type} (ones c₀ : A) : Cube A := ⟨.arr ones, .arr c₀⟩

/-- the assignment in `try`, flexcube/viewer.py:92-94; for exceptions nothing is done -/
def Cube.receive {A : Type} (s : Cube A) (v : Val A) : Cube A :=
  match eval v with
  | some (.list [a, b]) => ⟨a, b⟩
  | _ => s

/-- `drawIdleScene`, flexcube/viewer.py:90-99 -/
def Cube.idle {A : Type} (ones c₀ : A) (s : Cube A) (m : CubeMsg A) : Cube A :=
  let s := s.receive (listen m.sent)
  match s.points with
  | .r => ⟨.arr ones, .arr c₀⟩
  | _ => s

/-- messages of the ship, shipsteer.py:76-79, 114-116: heading, its change and the speed -/
inductive ShipMsg where
  | update (h hdot v : ℝ)
  | reset
  | lost

def ShipMsg.sent : ShipMsg → Option (Val Empty)
  | .update h hdot v => some (.list [.num h, .num hdot, .num v])
  | .reset => some (.list [.r, .r, .r])
  | .lost => Option.none

/-- the position in the plane and the number of frames -/
structure Ship where
  x : ℝ
  z : ℝ
  step : ℕ

/-- shipsteer/viewer.py:59, 65 -/
def Ship.start : Ship := ⟨0, 0, 0⟩

/-- `drawIdleScene`, shipsteer/viewer.py:89-99; `Option.none` is an exception -/
noncomputable def Ship.idle (s : Ship) (m : ShipMsg) : Option Ship :=
  match listen m.sent with
  | .list [.r, .r, .r] => some { s with x := 0, z := 0 }
  | .list [.num h, .num _, .num v] =>
    let a := h / 360 * 3.1428
    some ⟨s.x + v * Real.cos a * 0.02, s.z + v * -Real.sin a * 0.02, s.step + 1⟩
  | _ => Option.none

end Verif.Viewers
