import Verif.Model.DataSet
/-
Model of pybrain/tools/customxml/handling.py, and of `fListToString` (pybrain/utilities.py:235-240).

Strings are lists of characters. Nodes of the document are values; the node that a method changes is its argument. `string.split` is modelled as in Python 2
(it is absent in Python 3), with the blank as the only whitespace. How numbers are rounded and printed by "%g", and what `float` accepts, are arguments.
Parsing and printing of documents by minidom is not modelled.
-/
namespace Verif.XmlHandling
open Verif.DataSet (Err)

/-- nodes: elements with attributes and children, and texts, whose `nodeName` is `#text` -/
inductive Node where
  | elem (name : String) (attrs : List (String × String)) (children : List Node)
  | text (data : List Char)

/-- `nodeName` -/
def Node.nodeName : Node → String
  | .elem n _ _ => n
  | .text _ => "#text"

/-- `nodeType == ELEMENT_NODE` -/
def Node.isElem : Node → Bool
  | .elem .. => true
  | .text _ => false

/-- `childNodes` -/
def Node.childNodes : Node → List Node
  | .elem _ _ cs => cs
  | .text _ => []

/-- `attributes`; texts have none -/
def Node.attrs : Node → List (String × String)
  | .elem _ as _ => as
  | .text _ => []

/-- `setAttribute` -/
def setAttr (as : List (String × String)) (k v : String) : List (String × String) :=
  if as.any fun e => e.1 == k then as.map fun e => if e.1 = k then (e.1, v) else e else as ++ [(k, v)]

/-- the attribute with this name -/
def getAttr (as : List (String × String)) (k : String) : Option String := (as.find? fun e => e.1 == k).map Prod.snd

/-- `writeAttrDict`, handling.py:45-54 -/
def writeAttrDict (as : List (String × String)) (transform : String → String → String) : List (String × Option String) → List (String × String)
  | [] => as
  | (_, none) :: d => writeAttrDict as transform d
  | (k, some v) :: d => writeAttrDict (setAttr as k (transform v k)) transform d

/-- `readAttrDict`, handling.py:33-43 -/
def readAttrDict (as : List (String × String)) (transform : String → String → String) : List (String × String) := as.map fun e => (e.1, transform e.2 e.1)

/-- `newChild`, handling.py:59-63: the node with the new child -/
def newChild (node : Node) (name : String) : Node :=
  match node with
  | .elem n as cs => .elem n as (cs ++ [.elem name [] []])
  | .text d => .text d

/-- `getChild`, handling.py:69-73 -/
def getChild (node : Node) (name : String) : Option Node := node.childNodes.find? fun n => name != "" && n.nodeName == name

/-- `getChildrenOf`, handling.py:75-77 -/
def getChildrenOf (node : Node) : List Node := node.childNodes.filter Node.isElem

/-- the loop of `findNode`, handling.py:84-89 -/
def findLoop (name : String) : List Node → Int → Option Node
  | [], _ => none
  | n :: ns, index =>
    if n.nodeName = name then
      if index = 0 then some n else findLoop name ns (index - 1)
    else findLoop name ns index

/-- `findNode`, handling.py:79-89 -/
def findNode (root : Node) (name : String) (index : Int := 0) : Option Node := findLoop name root.childNodes index

/-- the loop of `findNamedNode`, handling.py:95-104: `n.attributes['name']` raises KeyError if there is none -/
def namedLoop (name nameattr : String) : List Node → Except Err (Option Node)
  | [] => .ok none
  | n :: ns =>
    if n.nodeName = name then
      match getAttr n.attrs "name" with
      | none => .error .keyError
      | some v => if v = nameattr then .ok (some n) else namedLoop name nameattr ns
    else namedLoop name nameattr ns

/-- `findNamedNode`, handling.py:91-104 -/
def findNamedNode (root : Node) (name nameattr : String) : Except Err (Option Node) := namedLoop name nameattr root.childNodes

/-! ### numbers -/

/-- `s.ljust(width)` -/
def ljust (width : Nat) (s : List Char) : List Char := s ++ List.replicate (width - s.length) ' '

/-- `", ".join(l)` -/
def joinComma : List (List Char) → List Char
  | [] => []
  | [s] => s
  | s :: l => s ++ [',', ' '] ++ joinComma l

section
variable {K : Type}

/-- `fListToString`, utilities.py:235-240; `fmt p x` is `"%g" % around(x, p)` -/
def fListToString (fmt : Nat → K → List Char) (l : List K) (precision : Nat) : List Char :=
  '[' :: joinComma (l.map fun x => ljust (precision + 3) (fmt precision x)) ++ [']']

/-- `writeDoubles`, handling.py:106-107: the text that is added -/
def writeDoubles (fmt : Nat → K → List Char) (l : List K) (precision : Nat := 6) : List Char := ((fListToString fmt l precision).drop 2).dropLast

/-- the words between blanks, after the beginning of a word -/
def splitGo : List Char → List Char → List (List Char)
  | cur, [] => if cur = [] then [] else [cur]
  | cur, c :: s => if c = ' ' then (if cur = [] then splitGo [] s else cur :: splitGo [] s) else splitGo (cur ++ [c]) s

/-- `split`: the words between blanks -/
def split (s : List Char) : List (List Char) := splitGo [] s

/-- `readDoubles`, handling.py:115-117, for the data of the text -/
def readDoubles (parse : List Char → Option K) (data : List Char) : Except Err (List K) :=
  match (split data).mapM parse with
  | none => .error .valueError
  | some l => .ok l

/-- `writeMatrix`, handling.py:109-113: the children that are added -/
def writeMatrix (fmt : Nat → K → List Char) (m : List (List K)) (precision : Nat := 6) : List Node :=
  (List.range m.length).map fun i => .elem "row" [("number", Nat.repr i)] [.text (writeDoubles fmt (m.getD i []) precision)]

end
end Verif.XmlHandling
