import Mathlib.Analysis.SpecialFunctions.Trigonometric.Basic
import Mathlib.Analysis.SpecialFunctions.Pow.Real

/-!
# XML structures and XODE files (`ode/tools/xmltools.py`, `ode/tools/xodetools.py`)

`XMLstruct` is a tag that contains further tags; the references `self.current` and `self.stack`
point into the tree below `self`.  Since tags are only ever appended at the end of the current tag,
which is then left or entered, the references are modelled by the current tag together with the
list of the tags around it, each with the subtags that precede the one that was entered.

Simplifications.  Values of attributes are kept as the text that `str` makes of them (nothing else
is done with them, since `scale` fails, see `scale`); numbers are turned into text by a function
argument.  Tag objects that are inserted are not referred to from elsewhere.  Attributes are not
called `Icontain`.  `setCurrent` is not modelled.  Of `XODEfile`, the tags, pass sets, colours and
sensor elements are modelled, not the texts of `writeCustomParameters`.  The classes for particular
robots further down in `xodetools.py` are not modelled.
-/

namespace Verif.Xode

/-- The dictionary of attributes of a tag, in the order of insertion. -/
abbrev Attrs := List (String × String)

/-- `XMLstruct`: a tag without (`leaf`) or with (`node`) the entry `Icontain` of subtags
(`ode/tools/xmltools.py:18-28`). -/
inductive Tag where
  | leaf (name : String) (attrs : Attrs)
  | node (name : String) (attrs : Attrs) (subs : List Tag)

/-- `getName` (`ode/tools/xmltools.py:115-117`). -/
def Tag.name : Tag → String
  | .leaf n _ => n
  | .node n _ _ => n

/-- The attributes of a tag. -/
def Tag.attrs : Tag → Attrs
  | .leaf _ a => a
  | .node _ a _ => a

/-- The subtags of a tag, as `getCurrentSubtags` returns them (`ode/tools/xmltools.py:119-123`). -/
def Tag.subs : Tag → List Tag
  | .leaf _ _ => []
  | .node _ _ ts => ts

/-- `hasSubtag()` (`ode/tools/xmltools.py:125-134`). -/
def Tag.hasSubtag : Tag → Bool
  | .leaf _ _ => false
  | .node _ _ _ => true

/-- `XMLstruct.__init__`: the attributes are put into the same dictionary as the name, under
the key `myName` (`ode/tools/xmltools.py:18-28`). -/
def newTag (name : String) (attr : Option Attrs) : Tag :=
  let a := attr.getD []
  .leaf ((a.lookup "myName").getD name) (a.filter fun p => p.1 ≠ "myName")

/-- An enclosing tag: its name, its attributes and the subtags before the one entered. -/
structure Frame where
  name : String
  attrs : Attrs
  earlier : List Tag

/-- `self.current` and `self.stack`, innermost first (`ode/tools/xmltools.py:30-32`). -/
structure Cursor where
  current : Tag
  stack : List Frame

/-- `insert(None)` (`ode/tools/xmltools.py:45-50`). -/
def Cursor.insertNone (c : Cursor) : Cursor :=
  { c with current := .node c.current.name c.current.attrs c.current.subs }

/-- `insert` of a tag (`ode/tools/xmltools.py:45-60`). -/
def Cursor.insertTag (c : Cursor) (t : Tag) : Cursor :=
  { current := t, stack := ⟨c.current.name, c.current.attrs, c.current.subs⟩ :: c.stack }

/-- `insert` of a name and attributes (`ode/tools/xmltools.py:45-60`). -/
def Cursor.insert (c : Cursor) (name : String) (attr : Option Attrs := none) : Cursor :=
  c.insertTag (newTag name attr)

/-- `insertMulti` (`ode/tools/xmltools.py:63-68`). -/
def Cursor.insertMulti (c : Cursor) (ts : List Tag) : Cursor :=
  { c with current := .node c.current.name c.current.attrs (c.current.subs ++ ts) }

/-- One step of `up` (`ode/tools/xmltools.py:101-105`). -/
def Cursor.upOne (c : Cursor) : Cursor :=
  match c.stack with
  | [] => c
  | f :: st => { current := .node f.name f.attrs (f.earlier ++ [c.current]), stack := st }

/-- `up(steps)` (`ode/tools/xmltools.py:101-105`). -/
def Cursor.up (c : Cursor) : (steps : Nat) → Cursor
  | 0 => c
  | n + 1 => c.upOne.up n

/-- `top()` (`ode/tools/xmltools.py:107-110`). -/
def Cursor.top (c : Cursor) : Cursor := c.up c.stack.length

/-- The whole structure, `self`. -/
def Cursor.root (c : Cursor) : Tag := c.top.current

/-- A new structure (`ode/tools/xmltools.py:18-32`). -/
def newStruct (name : String) (attr : Option Attrs := none) : Cursor :=
  { current := newTag name attr, stack := [] }

/-- The ways in which calls fail. -/
inductive Fault where
  | attributeError
  | typeError
  | indexError
  | zeroDivision
  | sysExit
  deriving DecidableEq, Repr

/-- `hasSubtag(name)`: `subtag.name` is not an attribute of the class
(`ode/tools/xmltools.py:125-134`). -/
def hasSubtagNamed (t : Tag) (_name : String) : Except Fault Bool :=
  match t with
  | .leaf _ _ => .ok false
  | .node _ _ [] => .ok false
  | .node _ _ (_ :: _) => .error .attributeError

/-- `getSubtag(name)` (`ode/tools/xmltools.py:137-143`). -/
def getSubtag (t : Tag) (_name : String) : Except Fault (Option Tag) :=
  match t with
  | .leaf _ _ => .ok none
  | .node _ _ [] => .ok none
  | .node _ _ (_ :: _) => .error .attributeError

/-- `downTo(name)` starts with `self.name`, which does not exist
(`ode/tools/xmltools.py:71-79`). -/
def downTo (_c : Cursor) (_name : String) : Except Fault (Bool × Cursor) := .error .attributeError

/-- `scale` starts with `self.name` (`ode/tools/xmltools.py:153-161`). -/
def scale (_c : Cursor) (_text : String → String) : Except Fault Cursor := .error .attributeError

/-- `nbAttributes`: the keys of the dictionary without `myName` and `Icontain`
(`ode/tools/xmltools.py:145-150`). -/
def nbAttributes (t : Tag) : Nat :=
  let keys := 1 + t.attrs.length + (if t.hasSubtag then 1 else 0)
  let nAttr := keys - 1
  if t.hasSubtag then nAttr - 1 else nAttr

/-- `_tab * depth` (`ode/tools/xmltools.py:16`). -/
def tabs : Nat → String
  | 0 => ""
  | n + 1 => "\t" ++ tabs n

/-- `name + '="' + str(val) + '"'` (`ode/tools/xmltools.py:179`). -/
def attrText (p : String × String) : String := p.1 ++ "=\"" ++ p.2 ++ "\""

/-- The line of the start tag (`ode/tools/xmltools.py:171-182`). -/
def startLine (t : Tag) (depth : Nat) : String :=
  let endmark := if t.hasSubtag then ">" else "/>"
  if nbAttributes t > 0 then
    tabs depth ++ "<" ++ t.name ++ " " ++ " ".intercalate (t.attrs.map attrText) ++ endmark ++ "\n"
  else tabs depth ++ "<" ++ t.name ++ ">\n"

mutual
/-- `write`: the texts written to the file, one after another
(`ode/tools/xmltools.py:163-189`). -/
def write : Tag → Nat → List String
  | .leaf n a, d => [startLine (.leaf n a) d]
  | .node n a ts, d =>
      startLine (.node n a ts) d :: (writeAll ts (d + 1) ++ [tabs d ++ "</" ++ n ++ ">\n"])
/-- The loop over the subtags (`ode/tools/xmltools.py:184-186`). -/
def writeAll : List Tag → Nat → List String
  | [], _ => []
  | t :: ts, d => write t d ++ writeAll ts d
end

/-! ### `XODEfile` -/

/-- An `XODEfile`: the structure, the pass sets, the colours, the names of the sensor elements
and their number (`ode/tools/xodetools.py:21-35`). -/
structure File (K : Type) where
  cursor : Cursor
  passes : List (String × List String)
  colors : List (String × (K × K × K))
  sensorElements : List String
  nSensorElements : Nat

/-- `XODEfile.__init__` (`ode/tools/xodetools.py:21-35`). -/
def newFile (K : Type) : File K :=
  { cursor := (newStruct "world").insert "space", passes := [], colors := [],
    sensorElements := [], nSensorElements := 0 }

section
variable {K : Type} [Field K]

/-- `size[i]`. -/
def at? (l : List K) (i : Nat) : Except Fault K :=
  match l[i]? with
  | some x => .ok x
  | none => .error .indexError

/-- The volume by which `_mass2dens` divides and `_dens2mass` multiplies
(`ode/tools/xodetools.py:37-67`). -/
def volume (shape : String) (size : List K) : Except Fault K :=
  if shape = "box" then do
    let a ← at? size 0
    let b ← at? size 1
    let c ← at? size 2
    .ok (a * b * c)
  else if shape = "cylinder" ∨ shape = "cappedCylinder" then
    if shape = "cylinder" then do
      let r ← at? size 0
      let l ← at? size 1
      .ok (12.56637061 * r * r * l)
    else do
      let r ← at? size 0
      let l ← at? size 1
      .ok (r * r * (12.56637061 * (l - 2 * r) + 4.18879020 * r))
  else if shape = "sphere" then do
    let r ← at? size 0
    .ok (4.18879020 * r ^ 3)
  else .error .sysExit

/-- `_mass2dens` (`ode/tools/xodetools.py:37-50`). -/
def mass2dens [DecidableEq K] (shape : String) (size : List K) (mass : K) : Except Fault K := do
  let v ← volume shape size
  if v = 0 then .error .zeroDivision else .ok (mass / v)

/-- `_dens2mass` (`ode/tools/xodetools.py:52-65`). -/
def dens2mass (shape : String) (size : List K) (dens : K) : Except Fault K := do
  let v ← volume shape size
  .ok (dens * v)

/-- `dims` (`ode/tools/xodetools.py:86-94`). -/
def dims (str : K → String) (shape : String) (size : List K) : Except Fault Attrs :=
  if shape = "box" then do
    let a ← at? size 0
    let b ← at? size 1
    let c ← at? size 2
    .ok [("sizex", str a), ("sizey", str b), ("sizez", str c)]
  else if shape = "cylinder" ∨ shape = "cappedCylinder" then do
    let r ← at? size 0
    let l ← at? size 1
    .ok [("radius", str r), ("length", str l)]
  else if shape = "sphere" then do
    let r ← at? size 0
    .ok [("radius", str r)]
  else .error .sysExit

/-- `set.add` on the set with the given key, which is created if it is not there
(`ode/tools/xodetools.py:107-110`). -/
def passAdd (bname : String) : List (String × List String) → String → List (String × List String)
  | [], pset => [(pset, [bname])]
  | (k, names) :: rest, pset =>
      if k = pset then (k, if bname ∈ names then names else names ++ [bname]) :: rest
      else (k, names) :: passAdd bname rest pset

/-- The arguments of `insertBody` (`ode/tools/xodetools.py:69`). -/
structure Body (K : Type) where
  name : String
  shape : String
  size : List K
  density : K
  pos : K × K × K
  passSet : Option (List String) := none
  euler : Option (K × K × K) := none
  mass : Option K := none
  color : Option (K × K × K) := none

/-- The density that is written (`ode/tools/xodetools.py:95-96`). -/
def densityOf [DecidableEq K] (b : Body K) : Except Fault K :=
  match b.mass with
  | none => .ok b.density
  | some m => mass2dens b.shape b.size m

/-- `insertBody`; the changes made before a failure are not modelled
(`ode/tools/xodetools.py:69-110`). -/
def insertBody [DecidableEq K] (str : K → String) (f : File K) (b : Body K) :
    Except Fault (File K) := do
  let c := f.cursor.insert "body" (some [("name", b.name)])
  let colors := match b.color with
    | none => f.colors
    | some col => f.colors ++ [(b.name, col)]
  let c := c.insert "transform"
  let c := c.insert "position"
    (some [("x", str b.pos.1), ("y", str b.pos.2.1), ("z", str b.pos.2.2)])
  let c := match b.euler with
    | none => c
    | some e =>
        (((c.up 1).insert "rotation").insert "euler"
          (some [("x", str e.1), ("y", str e.2.1), ("z", str e.2.2), ("aformat", "degrees")])).up 1
  let c := c.up 2
  let c := c.insert "mass"
  let ds ← dims str b.shape b.size
  let density ← densityOf b
  let c := c.insert "mass_shape" (some [("density", str density)])
  let c := c.insert b.shape (some ds)
  let c := c.up 3
  let c := c.insert "geom"
  let c := c.insert b.shape (some ds)
  let c := c.up 3
  .ok { f with
    cursor := c, colors := colors, passes := (b.passSet.getD []).foldl (passAdd b.name) f.passes }

/-- The arguments of `insertJoint` (`ode/tools/xodetools.py:114`). -/
structure Joint (K : Type) where
  body1 : String
  body2 : String
  type : String
  axis : Option Attrs := none
  anchor : K × K × K
  rel : Bool := false
  name : Option String := none

/-- The default name of a joint (`ode/tools/xodetools.py:119`). -/
def Joint.jname {K : Type} (j : Joint K) : String :=
  j.name.getD (j.body1 ++ "_" ++ j.body2)

/-- The attributes of the tag `anchor` (`ode/tools/xodetools.py:120-123`, `134`). -/
def anchorAttrs (str : K → String) (j : Joint K) : Attrs :=
  [("x", str j.anchor.1), ("y", str j.anchor.2.1), ("z", str j.anchor.2.2),
   ("absolute", if j.rel then "false" else "true")]

/-- The part of `insertJoint` for the types of joints (`ode/tools/xodetools.py:131-146`). -/
def insertType (str : K → String) (c : Cursor) (j : Joint K) : Except Fault Cursor :=
  if j.type = "fixed" then .ok c.insertNone
  else if j.type = "ball" then .ok ((c.insert "anchor" (some (anchorAttrs str j))).up 1)
  else if j.type = "slider" then .ok ((c.insert "axis" j.axis).up 1)
  else if j.type = "hinge" then
    .ok ((((c.insert "axis" j.axis).up 1).insert "anchor" (some (anchorAttrs str j))).up 1)
  else .error .sysExit

/-- `insertJoint`, with the name it returns (`ode/tools/xodetools.py:114-148`). -/
def insertJoint (str : K → String) (f : File K) (j : Joint K) : Except Fault (String × File K) := do
  let c := f.cursor.insert "joint" (some [("name", j.jname)])
  let c := (c.insert "link1" (some [("body", j.body1)])).up 1
  let c := (c.insert "link2" (some [("body", j.body2)])).up 1
  let c := c.insert j.type
  let c ← insertType str c j
  .ok (j.jname, { f with cursor := c.up 2 })

/-- `insertFloor` (`ode/tools/xodetools.py:151-155`). -/
def insertFloor (str : K → String) (f : File K) (y : K) : File K :=
  { f with cursor := ((f.cursor.insert "geom" (some [("name", "floor")])).insert "plane"
      (some [("a", str 0), ("b", str 1), ("c", str 0), ("d", str y)])).up 2 }

/-- `merge`: `downTo` is called first (`ode/tools/xodetools.py:212-224`). -/
def merge (f g : File K) (joinLevel : String) : Except Fault (File K × File K) := do
  let (_, c) ← downTo f.cursor.top joinLevel
  let (_, d) ← downTo g.cursor.top joinLevel
  .ok ({ f with cursor := c.insertMulti d.current.subs,
                passes := f.passes.filter (fun p => (g.passes.lookup p.1).isNone) ++ g.passes },
       { g with cursor := d })

/-- `writeXODE` in Python 3: the file is opened for bytes, and a text is written
(`ode/tools/xodetools.py:280-285`).  The value is the content of the file and the fault. -/
def writeXODE (_f : File K) : List String × Except Fault Unit := ([], .error .typeError)

end

/-- The arguments of `insertPressureSensorElement` (`ode/tools/xodetools.py:157-158`). -/
structure Element where
  parent : String
  name : Option String := none
  shape : String
  size : List ℝ
  pos : ℝ × ℝ × ℝ
  euler : ℝ × ℝ × ℝ
  dens : ℝ
  mass : Option ℝ
  passSet : List String
  stiff : ℝ

/-- `kd` (`ode/tools/xodetools.py:185`). -/
noncomputable def damping (mass stiff : ℝ) : ℝ := 2.0 * Real.sqrt (mass * stiff / 1.02)

/-- `ERP` and `CFM` (`ode/tools/xodetools.py:173`, `186-187`). -/
noncomputable def springParams (mass stiff : ℝ) : ℝ × ℝ :=
  let h : ℝ := 0.02
  let erp := h * stiff / (h * stiff + damping mass stiff)
  (erp, erp / (h * stiff))

/-- Product of a 3x3 matrix and a vector. -/
def mulVec (A : (ℝ × ℝ × ℝ) × (ℝ × ℝ × ℝ) × (ℝ × ℝ × ℝ)) (v : ℝ × ℝ × ℝ) : ℝ × ℝ × ℝ :=
  let dot (r : ℝ × ℝ × ℝ) := r.1 * v.1 + r.2.1 * v.2.1 + r.2.2 * v.2.2
  (dot A.1, dot A.2.1, dot A.2.2)

/-- `ax`, the direction of the sliding axis for the Euler angles in degrees
(`ode/tools/xodetools.py:192-200`); the product of the matrices is applied factor by factor. -/
noncomputable def slidingAxis (euler : ℝ × ℝ × ℝ) : ℝ × ℝ × ℝ :=
  let w0 := euler.1 * Real.pi / 180
  let w1 := euler.2.1 * Real.pi / 180
  let w2 := euler.2.2 * Real.pi / 180
  let A := ((-Real.sin w0, Real.cos w0, 0), (-Real.cos w0, -Real.sin w0, 0), (0, 0, 1))
  let B := ((1, 0, 0), (0, Real.cos w1, Real.sin w1), (0, -Real.sin w1, Real.cos w1))
  let C := ((Real.sin w2, -Real.cos w2, 0), (Real.cos w2, Real.sin w2, 0), (0, 0, 1))
  mulVec C (mulVec B (mulVec A (0, 0, 1)))

open Classical in
/-- The mass and the density of a sensor element (`ode/tools/xodetools.py:167-170`). -/
noncomputable def massDens (e : Element) : Except Fault (ℝ × ℝ) :=
  match e.mass with
  | none => (dens2mass e.shape e.size e.dens).map fun m => (m, e.dens)
  | some m => (mass2dens e.shape e.size m).map fun d => (m, d)

open Classical in
/-- `insertPressureSensorElement` (`ode/tools/xodetools.py:157-205`). -/
noncomputable def insertElement (str : ℝ → String) (f : File ℝ) (e : Element) :
    Except Fault (String × File ℝ) := do
  let name := e.name.getD ("psens" ++ toString f.nSensorElements)
  let md ← massDens e
  let f := { f with nSensorElements := f.nSensorElements + 1 }
  let f ← insertBody str f
    { name := name, shape := e.shape, size := e.size, density := md.2, pos := e.pos,
      euler := some e.euler, passSet := some e.passSet }
  let p := springParams md.1 e.stiff
  let ax := slidingAxis e.euler
  let (jname, f) ← insertJoint str f
    { body1 := name, body2 := e.parent, type := "slider", anchor := (0, 0, 0),
      axis := some [("x", str ax.1), ("y", str ax.2.1), ("z", str ax.2.2), ("HiStop", str 0),
        ("LowStop", str 0), ("StopERP", str p.1), ("StopCFM", str p.2)] }
  .ok (name, { f with sensorElements := f.sensorElements ++ [jname] })

end Verif.Xode
