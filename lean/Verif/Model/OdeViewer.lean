import Mathlib.Analysis.SpecialFunctions.Trigonometric.Inverse
/-
Model of what the viewer of ODE environments shows (`pybrain/rl/environments/ode/viewer.py` and `tools/mathhelpers.py`): the camera, the placement of objects, planes, and the names of screenshots.

Numbers are real numbers. The current transformation of OpenGL is a function on points, which `glTranslate`, `glScaled`, `glRotate` and `glMultMatrixd` compose on the right; the shapes of GLUT and GLU are sets of points. Colours, lights,
textures and the network connection are not modelled.
-/
namespace Verif.OdeViewer

/-- points and vectors -/
structure P3 where
  x : ℝ
  y : ℝ
  z : ℝ

/-- mathhelpers.py:7-8 -/
def dotproduct (p q : P3) : ℝ := p.x * q.x + p.y * q.y + p.z * q.z

/-- mathhelpers.py:10-14 -/
noncomputable def norm (p : P3) : ℝ := √(0 + p.x ^ 2 + p.y ^ 2 + p.z ^ 2)

/-- mathhelpers.py:16-19 -/
def crossproduct (p q : P3) : P3 := ⟨p.y * q.z - p.z * q.y, p.z * q.x - p.x * q.z, p.x * q.y - p.y * q.x⟩

/-! ### the camera -/

/-- `mouseView`, `viewDistance`, `lastx`, `lasty`, `lastz` -/
structure View where
  mouse : Bool
  distance : ℝ
  last : P3

/-- viewer.py:26-32 -/
noncomputable def View.init : View := ⟨true, 30, ⟨-0.5, 1, -1⟩⟩

/-- `_passivemotionfunc`, viewer.py:319-340, in a window of `w` times `h` -/
noncomputable def passive (w h : ℕ) (v : View) (x z : ℤ) : View :=
  if !v.mouse then v
  else
    let x1 := 3 * (x : ℝ) / w - 1.5
    let z1 := -3 * (z : ℝ) / h + 1.5
    let l := √(x1 * x1 + z1 * z1)
    if l > 0.994987 then { v with last := ⟨x1 / l, 0, z1 / l⟩ }
    else { v with last := ⟨x1, max 0 (√(1 - x1 * x1 - z1 * z1) - 0.1), z1⟩ }

/-- `_motionfunc`, viewer.py:312-317 -/
noncomputable def motion (w h : ℕ) (v : View) (x z : ℤ) : View :=
  if !v.mouse then v
  else
    let zn := 2.75 * (z : ℝ) / h + 0.25
    passive w h { v with distance := 3 * zn * zn } x z

/-- callbacks: the mouse moved with and without a button, and the key `v` -/
inductive Ev
  | drag (x z : ℤ)
  | move (x z : ℤ)
  | key

/-- the view after a callback (viewer.py:302-340) -/
noncomputable def View.step (w h : ℕ) (v : View) : Ev → View
  | .drag x z => motion w h v x z
  | .move x z => passive w h v x z
  | .key => { v with mouse := !v.mouse }

/-- the eye and the point looked at, viewer.py:146-154; `obj` is the position of the object to be followed -/
def camera (v : View) (obj : Option P3) : P3 × P3 :=
  let c := match obj with
    | some p => p
    | none => ⟨0, 0, 0⟩
  (⟨v.distance * v.last.x, v.distance * v.last.y + c.y, v.distance * v.last.z⟩, c)

/-! ### objects -/

/-- a transformation of points -/
abbrev Tr := P3 → P3

/-- `glTranslate` -/
def translate (t : Tr) (x y z : ℝ) : Tr := fun p => t ⟨x + p.x, y + p.y, z + p.z⟩

/-- `glScaled` -/
def scale (t : Tr) (x y z : ℝ) : Tr := fun p => t ⟨x * p.x, y * p.y, z * p.z⟩

/-- `glMultMatrixd`: the columns of the matrix one after the other -/
def multMatrix (t : Tr) (m : Fin 16 → ℝ) : Tr := fun p =>
  t ⟨m 0 * p.x + m 4 * p.y + m 8 * p.z + m 12, m 1 * p.x + m 5 * p.y + m 9 * p.z + m 13, m 2 * p.x + m 6 * p.y + m 10 * p.z + m 14⟩

/-- `glRotate` by an angle in degrees around an axis; without an axis nothing is rotated -/
noncomputable def rotate (t : Tr) (angle : ℝ) (c : P3) : Tr := fun p =>
  if norm c = 0 then t p
  else
    let k : P3 := ⟨c.x / norm c, c.y / norm c, c.z / norm c⟩
    let a := angle * Real.pi / 180
    let kp := crossproduct k p
    let d := dotproduct k p * (1 - Real.cos a)
    t ⟨p.x * Real.cos a + kp.x * Real.sin a + k.x * d, p.y * Real.cos a + kp.y * Real.sin a + k.y * d, p.z * Real.cos a + kp.z * Real.sin a + k.z * d⟩

/-- `glutSolidCube(1)` -/
def cube : Set P3 := { p | |p.x| ≤ 1 / 2 ∧ |p.y| ≤ 1 / 2 ∧ |p.z| ≤ 1 / 2 }

/-- `glutSolidSphere(r, ...)` -/
def sphere (r : ℝ) : Set P3 := { p | p.x ^ 2 + p.y ^ 2 + p.z ^ 2 ≤ r ^ 2 }

/-- `gluCylinder(quad, r, r, l, ...)`: the side, from `z = 0` to `z = l` -/
def side (r l : ℝ) : Set P3 := { p | p.x ^ 2 + p.y ^ 2 = r ^ 2 ∧ 0 ≤ p.z ∧ p.z ≤ l }

/-- `gluDisk(quad, 0, r, ...)` -/
def disk (r : ℝ) : Set P3 := { p | p.x ^ 2 + p.y ^ 2 ≤ r ^ 2 ∧ p.z = 0 }

/-- the kinds of items -/
inductive Item
  | box (sx sy sz : ℝ)
  | sphere (radius : ℝ)
  | ccylinder (radius length : ℝ)
  | cylinder (radius length : ℝ)

/-- the list `rot`, viewer.py:173-176 -/
def rot (R : Fin 9 → ℝ) (pos : P3) : Fin 16 → ℝ := ![R 0, R 3, R 6, 0, R 1, R 4, R 7, 0, R 2, R 5, R 8, 0, pos.x, pos.y, pos.z, 1]

/-- `draw_item` for objects with position and rotation, viewer.py:160-208: the points drawn -/
def drawn (R : Fin 9 → ℝ) (pos : P3) (item : Item) : Set P3 :=
  let t := multMatrix id (rot R pos)
  match item with
  | .box sx sy sz => scale t sx sy sz '' cube
  | .sphere r => t '' sphere r
  | .ccylinder r l =>
    let t1 := translate t 0 0 (-l / 2)
    let t2 := translate t1 0 0 l
    t1 '' side r l ∪ t1 '' sphere r ∪ t2 '' sphere r
  | .cylinder r l =>
    let t1 := translate t 0 0 (-l / 2)
    let t2 := translate t1 0 0 l
    t1 '' disk r ∪ t1 '' side r l ∪ t2 '' disk r

/-- the angle of a plane in degrees, viewer.py:229-234 -/
noncomputable def theta (p : P3) : ℝ := Real.arccos (dotproduct p ⟨0, 0, 1⟩ / (norm p * norm ⟨0, 0, 1⟩)) / Real.pi * 180

/-- `draw_item` for planes, viewer.py:210-241: the points drawn; `none` is a ZeroDivisionError -/
noncomputable def drawnPlane (p : P3) (d : ℝ) : Option (Set P3) :=
  if norm p * norm ⟨0, 0, 1⟩ = 0 then none
  else some (rotate (translate id (d * p.x) (d * p.y) (d * p.z)) (-theta p) (crossproduct p ⟨0, 0, 1⟩) '' disk 20)

/-! ### screenshots -/

/-- `_screenshot`, viewer.py:342-371: `counter` and the names of files in the directory; an existing file of the same name is replaced -/
def screenshot (frameT : ℕ) (s : ℕ × List (List Char)) : ℕ × List (List Char) :=
  if s.1 = frameT then
    let digits := Nat.toDigits 10 s.2.length
    let name := List.replicate (5 - digits.length) '0' ++ digits
    (1, if name ∈ s.2 then s.2 else s.2 ++ [name])
  else (s.1 + 1, s.2)

end Verif.OdeViewer
