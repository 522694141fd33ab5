import Verif.Model.OdeViewer
/-
Model of the drawing of the flexible cube (`pybrain/rl/environments/flexcube/objects3d.py`): `drawCreature`, `drawMirCreat` and `drawShadow`.

What is drawn are quads: a normal vector and four vertices. Coordinates are real numbers.
-/
namespace Verif.CubeDrawing
open Verif.OdeViewer (P3)

/-- ZeroDivisionError -/
inductive DErr where
  | zeroDivision
deriving DecidableEq, Repr

/-- `addVect`, objects3d.py:306-308 -/
def addVect (p q : P3) : P3 := ⟨p.x + q.x, p.y + q.y, p.z + q.z⟩

/-- `difVect`, objects3d.py:302-304 -/
def difVect (p q : P3) : P3 := ⟨p.x - q.x, p.y - q.y, p.z - q.z⟩

/-- `dumpVect`, objects3d.py:315-318 -/
def dumpVect (p : P3) (f : ℝ) : P3 := ⟨p.x * f, p.y * f, p.z * f⟩

/-- `normVect`, objects3d.py:320-325 -/
noncomputable def normVect (p : P3) (norm : ℝ) : Except DErr P3 :=
  let summe := 0 + p.x * p.x + p.y * p.y + p.z * p.z
  if √summe = 0 then .error .zeroDivision else .ok (dumpVect p (norm / √summe))

/-- `normale`, objects3d.py:9-13 -/
noncomputable def normale (vect center : P3) : Except DErr P3 := normVect (difVect (dumpVect vect (1 / 4)) center) 1

/-- the corners of a face in the order of the loops, for example objects3d.py:21-25 with `index i k = i * 4 + k` -/
def corners (index : Nat → Nat → Nat) : List Nat := [(0, 0), (0, 1), (1, 0), (1, 1)].map fun p => index p.1 (p.1 ^^^ p.2)

/-- the faces: unten, links, rechts, oben, vorne, hinten (objects3d.py:18-106) -/
def faces : List (List Nat) :=
  [corners fun i k => i * 4 + k, corners fun j k => j * 2 + k, corners fun j k => 4 + j * 2 + k, corners fun i k => i * 4 + 2 + k, corners fun i j => i * 4 + j * 2 + 1, corners fun i j => i * 4 + j * 2]

/-- a quad -/
structure Quad where
  normal : P3
  vertices : List P3

/-- one face: the normal and the vertices -/
noncomputable def quad (vertex : P3 → P3) (points : Nat → P3) (center : P3) (face : List Nat) : Except DErr Quad :=
  (normale ((face.map points).foldl addVect ⟨0, 0, 0⟩) center).map fun n => ⟨n, face.map fun i => vertex (points i)⟩

/-- `drawCreature`, objects3d.py:15-107 -/
noncomputable def drawCreature (points : Nat → P3) (center : P3) : Except DErr (List Quad) := faces.mapM (quad id points center)

/-- `drawMirCreat`, objects3d.py:109-201: the second coordinate of the vertices is negated -/
noncomputable def drawMirCreat (points : Nat → P3) (center : P3) : Except DErr (List Quad) := faces.mapM (quad (fun p => ⟨p.x, -p.y, p.z⟩) points center)

/-- a corner in `drawShadow`, for example objects3d.py:215 -/
noncomputable def shadowPoint (h : ℝ) (p : P3) : P3 := ⟨p.x + -0.33 * p.y, -h, p.z + -0.5 * p.y⟩

/-- a face in `drawShadow`, for example objects3d.py:222-235: the second coordinate of the vertices is negated -/
noncomputable def shadowQuad (points : Nat → P3) (center : P3) (fh : List Nat × ℝ) : Except DErr Quad :=
  let point := fh.1.map fun i => shadowPoint fh.2 (points i)
  (normale (point.foldl addVect ⟨0, 0, 0⟩) center).map fun n => ⟨n, point.map fun p => ⟨p.x, -p.y, p.z⟩⟩

/-- `drawShadow`, objects3d.py:203-300: the bottom has its own normal, and its vertices are not negated -/
noncomputable def drawShadow (points : Nat → P3) (center : P3) : Except DErr (List Quad) := do
  let rest ← ((faces.drop 1).zip [0.02, 0.015, 0.01, 0.005, 0]).mapM (shadowQuad points center)
  pure (⟨⟨0, 1, 0⟩, (faces.headD []).map fun i => shadowPoint 0.025 (points i)⟩ :: rest)

end Verif.CubeDrawing
