import Mathlib.Analysis.SpecialFunctions.Trigonometric.Basic
/-
Model of the parsers of bodies, masses and geoms in XODE files (`pybrain/rl/environments/ode/xode_changes/body.py` and `geom.py`).

An element of the file is a tree; since every handler is removed at the end tag of its element, the events of a tree are handled by recursion over it.  Children of tags
without a handler of their own (`torque`, `ext` and so on) are left out.  Attributes are numbers or missing.  Positions and rotations are elements of a monoid of transformations, whose product
is `Transform.multiply`; `getTransform()` (PyODE) is the product of the transformations of the nodes from the outermost to this one, `getTransform(ancestor)` of those below the ancestor.  Of a mass only its
amount is modelled; it is additive, and `adjust` sets it.
-/
namespace Verif.XodeBody

/-- `errors.ChildError`, `errors.InvalidError`, `KeyError` and `NotImplementedError`. -/
inductive XErr
  | child
  | invalid
  | key
  | notImplemented
  deriving DecidableEq, Repr

/-- The shapes of masses (body.py:198-217). -/
inductive Shape
  | sphere (radius : Option ℝ)
  | box (x y z : Option ℝ)
  | cappedCylinder (radius length : Option ℝ)
  | cylinder (radius length : Option ℝ)
  | unknown

/-- The children of a mass element (body.py:167-181). -/
inductive MassItem
  | struct
  | shape (density : Option ℝ) (shapes : List Shape)
  | transform
  | adjust (total : Option ℝ)
  | mass (items : List MassItem)
  | unknown

/-- An attribute that must be there. -/
def need (o : Option ℝ) : Except XErr ℝ := match o with
  | some v => .ok v
  | none => .error .key

/-- What ODE computes for `setSphere`, `setBox`, `setCappedCylinder` and `setCylinder`: density times volume. -/
noncomputable def ball (r : ℝ) : ℝ := 4 / 3 * Real.pi * r ^ 3
noncomputable def tube (r l : ℝ) : ℝ := Real.pi * r ^ 2 * l

/-- The volume of a shape, with its default attributes (body.py:199, 203-205, 209-210, 214-215). -/
noncomputable def volume : Shape → Except XErr ℝ
  | .sphere r => .ok (ball (r.getD 1))
  | .box x y z => do return (← need x) * (← need y) * (← need z)
  | .cappedCylinder r l => do return tube (r.getD 1) (← need l) + ball (r.getD 1)
  | .cylinder r l => do return tube (r.getD 1) (← need l)
  | .unknown => .error .notImplemented

/-- `start` in `_parseMassShape` (body.py:197-220). -/
noncomputable def shapeStart (density : Option ℝ) (m : ℝ) (s : Shape) : Except XErr ℝ := do
  let v ← volume s
  return match density with
    | some d => d * v
    | none => m

mutual
/-- `Mass._startElement` and `Mass._endElement` (body.py:164-191): the mass after a child. -/
noncomputable def massItem : MassItem → ℝ → Except XErr ℝ
  | .struct, m => .ok m
  | .shape density shapes, m => shapes.foldlM (shapeStart density) m
  | .transform, m => .ok m
  | .adjust total, _ => need total
  | .mass items, m => (massItems items (1 * ball 1)).map fun k => m + k
  | .unknown, _ => .error .child
noncomputable def massItems : List MassItem → ℝ → Except XErr ℝ
  | [], m => .ok m
  | c :: cs, m => do massItems cs (← massItem c m)
end

/-- A mass element: it begins with a sphere of radius and density one (body.py:147-149). -/
noncomputable def massOf (items : List MassItem) : Except XErr ℝ := massItems items (1 * ball 1)

/-- Elements of bodies and geoms (body.py:83-129, geom.py:63-97); `motion` stands for torque, force, finiteRotation, linearVel and angularVel, `shape` for the placeable shapes of geoms,
`fixed` for plane and ray, `ignored` for jointgroup and ext. -/
inductive Node (G : Type)
  | transform (t : G)
  | motion
  | mass (items : List MassItem)
  | joint
  | shape
  | fixed
  | ignored
  | cone
  | body (children : List (Node G))
  | geom (children : List (Node G))
  | unknown

/-- What the simulation gets: a body at a place, a shape at a place of its own (`attached = false`), or attached to a body, where its place is the place of
the body times the relative one. -/
inductive Rec (G : Type)
  | body (place : G) (mass : Option ℝ)
  | shape (attached : Bool) (place : G)
  | fixed

variable {G : Type}

/-- The state of a body parser: its own transformation, the place once set (`_transformed`), `_mass`, and what was made so far. -/
structure BodySt (G : Type) where
  own : G
  placed : Option G
  mass : Option ℝ
  out : List (Rec G)

/-- The state of a geom parser: its own transformation, `_transformed`, whether there is an object, and what was made so far. -/
structure GeomSt (G : Type) where
  own : G
  transformed : Bool
  object : Bool
  out : List (Rec G)

/-- Where a geom is: the product of the transformations of its ancestors, the place of the innermost body around it, and the product below this body. -/
structure Ctx (G : Type) where
  path : G
  body : Option G
  rel : G

variable [Monoid G]

/-- `Body._applyTransform` (body.py:69-78). -/
def apply (path : G) (st : BodySt G) : BodySt G := match st.placed with
  | some _ => st
  | none => { st with placed := some (path * st.own) }

/-- `Geom._setObject` (geom.py:108-147). -/
def setObject (c : Ctx G) (st : GeomSt G) : GeomSt G := match c.body with
  | none => { st with object := true, out := st.out ++ [.shape false (c.path * st.own)] }
  | some b =>
    if st.transformed then { st with object := true, out := st.out ++ [.shape true (b * (c.rel * st.own))] }
    else { st with object := true, out := st.out ++ [.shape true b] }

/-- The place of the body around a geom: it has been set when the geom begins (body.py:87). -/
def around (path : G) (st : BodySt G) : Ctx G := ⟨path * st.own, (apply path st).placed, 1⟩

mutual
/-- `Body._startElement` (body.py:80-129). -/
noncomputable def bodyNode (path : G) : Node G → BodySt G → Except XErr (BodySt G)
  | .transform t, st => .ok { st with own := t }
  | .motion, st => .ok (apply path st)
  | .mass items, st => (massOf items).map fun m => { apply path st with mass := some m }
  | .joint, st => .ok (apply path st)
  | .body cs, st => (bodyNodes (path * st.own) cs ⟨1, none, none, []⟩).map fun b =>
      { apply path st with out := st.out ++ b.out ++ [.body (((apply (path * st.own) b).placed).getD 1) b.mass] }
  | .geom cs, st => (geomNodes (around path st) cs ⟨1, false, false, []⟩).bind fun g =>
      if g.object then .ok { apply path st with out := st.out ++ g.out } else .error .invalid
  | .shape, _ => .error .child
  | .fixed, _ => .error .child
  | .ignored, _ => .error .child
  | .cone, _ => .error .child
  | .unknown, _ => .error .child
noncomputable def bodyNodes (path : G) : List (Node G) → BodySt G → Except XErr (BodySt G)
  | [], st => .ok st
  | c :: cs, st => (bodyNode path c st).bind fun st' => bodyNodes path cs st'
/-- `Geom._startElement` and `Geom._endElement` (geom.py:60-106). -/
noncomputable def geomNode (c : Ctx G) : Node G → GeomSt G → Except XErr (GeomSt G)
  | .transform t, st => .ok { st with own := t, transformed := true }
  | .shape, st => .ok (setObject c st)
  | .fixed, st => .ok { st with object := true, out := st.out ++ [.fixed] }
  | .cone, _ => .error .notImplemented
  | .geom cs, st => (geomNodes ⟨c.path * st.own, c.body, c.rel * st.own⟩ cs ⟨1, false, false, []⟩).bind fun g =>
      if g.object then .ok { st with out := st.out ++ g.out } else .error .invalid
  | .body cs, st => (bodyNodes (c.path * st.own) cs ⟨1, none, none, []⟩).map fun b =>
      { st with out := st.out ++ b.out ++ [.body (((apply (c.path * st.own) b).placed).getD 1) b.mass] }
  | .joint, st => .ok st
  | .ignored, st => .ok st
  | .motion, _ => .error .child
  | .mass _, _ => .error .child
  | .unknown, _ => .error .child
noncomputable def geomNodes (c : Ctx G) : List (Node G) → GeomSt G → Except XErr (GeomSt G)
  | [], st => .ok st
  | n :: ns, st => (geomNode c n st).bind fun st' => geomNodes c ns st'
end

/-- A body element within ancestors of the given product of transformations (body.py:39-57, 131-137). -/
noncomputable def parseBody (path : G) (cs : List (Node G)) : Except XErr (List (Rec G)) :=
  (bodyNodes path cs ⟨1, none, none, []⟩).map fun b => b.out ++ [.body (((apply path b).placed).getD 1) b.mass]

/-- A geom element outside of bodies (geom.py:39-48). -/
noncomputable def parseGeom (path : G) (cs : List (Node G)) : Except XErr (List (Rec G)) :=
  (geomNodes ⟨path, none, 1⟩ cs ⟨1, false, false, []⟩).bind fun g => if g.object then .ok g.out else .error .invalid

end Verif.XodeBody
