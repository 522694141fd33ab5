import Mathlib.Data.List.Infix

/-!
# Parameters at the end of XODE files and objects that pass each other (`ode/tools/configgrab.py`, `ode/tools/xodetools.py`, `ode/environment.py`)

Texts are lists of characters; the lines of a file contain their newlines.  `ConfigGrabber` is
modelled for Python 2 (`string.strip` does not exist in Python 3), `delim` as a pair of characters.
The texts of the values (`str(tuple(...))`, `repr`) are arguments.  The contacts that the engine
finds are an argument, too.
-/

namespace Verif.OdeConfig

/-- A text. -/
abbrev Text := List Char

/-- The whitespace that `strip` removes. -/
def isWs (c : Char) : Bool := c = ' ' || c = '\n' || c = '\t' || c = '\r' || c = '\x0b' || c = '\x0c'

/-- `string.strip`. -/
def strip (l : Text) : Text := (((l.dropWhile isWs).reverse).dropWhile isWs).reverse

/-- `ConfigGrabber` (`ode/tools/configgrab.py:5-13`); the name of the section is stripped. -/
structure Grabber where
  sectionId : Text
  opening : Char
  closing : Char
  deriving DecidableEq

/-- `ConfigGrabber.__init__`. -/
def newGrabber (sectionId : Text) (opening closing : Char) : Grabber := ⟨strip sectionId, opening, closing⟩

/-- The values of `flag`: -1, 0 and 1. -/
inductive Flag where
  | before
  | skip
  | take
  deriving DecidableEq

/-- The first test in the loop (`ode/tools/configgrab.py:25-26`). -/
def enter (g : Grabber) (flag : Flag) (line : Text) : Flag :=
  if flag = .before ∧ strip line = g.sectionId then .skip else flag

/-- The line of a tag (`ode/tools/configgrab.py:31`). -/
def tagLine (g : Grabber) (name : Text) : Text := g.opening :: name ++ [g.closing, '\n']

/-- The loop of `getValue` (`ode/tools/configgrab.py:24-32`). -/
def scan (g : Grabber) (name : Text) : Flag → List Text → List Text
  | _, [] => []
  | flag, line :: lines =>
    match enter g flag line with
    | .before => scan g name .before lines
    | .skip => if line.head? ≠ some g.opening then scan g name .skip lines
      else scan g name (if line = tagLine g name then .take else .skip) lines
    | .take => if line.head? ≠ some g.opening then strip line :: scan g name .take lines
      else scan g name (if line = tagLine g name then .take else .skip) lines

/-- `getValue(name)` (`ode/tools/configgrab.py:15-35`): the values and the object afterwards. -/
def Grabber.getValue (g : Grabber) (file : List Text) (name : Text) : List Text × Grabber :=
  let g' := if g.sectionId = [] then { g with sectionId := strip (file.headD []) } else g
  (scan g' name .before file, g')

/-- What `writeCustomParameters` writes: the texts of the pass sets, the body to center on, the joint
to affix, the command for the sensor elements (if there are any), the commands for the other
sensors, and the texts of the colours. -/
structure Params where
  pass : List Text
  centerOn : Option Text
  affix : Option Text
  elements : Option Text
  sensors : List Text
  colors : List Text

/-- `f.write(text + '\n')`. -/
def ln (t : Text) : Text := t ++ ['\n']

/-- `writeCustomParameters` (`ode/tools/xodetools.py:246-277`). -/
def Params.write (p : Params) : List Text :=
  [ln "<!--odeenvironment parameters".toList] ++
  (if p.pass.length > 0 then ln "<passpairs>".toList :: p.pass.map ln else []) ++
  (match p.centerOn with
    | some t => [ln "<centerOn>".toList, ln t]
    | none => []) ++
  (match p.affix with
    | some t => [ln "<affixToEnvironment>".toList, ln t]
    | none => []) ++
  (match p.elements with
    | some t => [ln "<sensors>".toList, ln t]
    | none => []) ++
  p.sensors.map ln ++
  (if p.colors.length > 0 then ln "<colors>".toList :: p.colors.map ln else []) ++
  [ln "<end>".toList, ln "-->".toList]

/-- The grabber of `loadConfig` (`ode/environment.py:218`). -/
def envGrabber : Grabber := newGrabber "<!--odeenvironment parameters".toList '<' '>'

/-- The inner loop over the names of a tuple (`ode/environment.py:408-412`). -/
def matches2 (n1 n2 : Text) : Bool × Bool → List Text → Bool × Bool
  | g, [] => g
  | g, x :: xs => matches2 n1 n2 (g.1 || decide (x <:+: n1), g.2 || decide (x <:+: n2)) xs

/-- The loop over the tuples (`ode/environment.py:407-414`): do the objects pass each other? -/
def passing (n1 n2 : Text) : List (List Text) → Bool
  | [] => false
  | p :: ps =>
    let g := matches2 n1 n2 (false, false) p
    if g.1 && g.2 then true else passing n1 n2 ps

/-- `_near_callback` (`ode/environment.py:399-433`): the contact joints that are created. -/
def nearCallback {C : Type} (pairs : List (List Text)) (n1 n2 : Option Text) (contacts : List C) : List C :=
  match n1, n2 with
  | some a, some b => if passing a b pairs then [] else contacts
  | _, _ => contacts

end Verif.OdeConfig
