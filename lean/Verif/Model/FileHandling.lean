import Verif.Model.DataSet
/-
Model of pybrain/tools/filehandling.py.

Strings are lists of characters. A file is `none` if it does not exist, otherwise a list of bytes. Pickling is an argument: `encode` gives the bytes of a
dictionary, and `decode` what `pickle.load` makes of bytes (`none` if it raises). The messages that are printed are not modelled.
-/
namespace Verif.FileHandling

/-! ### lists of files -/

/-- `f[-n:]` -/
def lastChars (n : Nat) (f : List Char) : List Char := if n = 0 then f else f.drop (f.length - n)

/-- `f[:-n]` -/
def withoutLast (n : Nat) (f : List Char) : List Char := if n = 0 then [] else f.take (f.length - n)

/-- `getAllFilesIn`, filehandling.py:8-16, for a directory with these files -/
def getAllFilesIn (allfiles : List (List Char)) (tag extension : List Char) : List (List Char) :=
  (allfiles.filter fun f => lastChars extension.length f == extension && f.take tag.length == tag).map (withoutLast extension.length)

/-- `s.find(rs)`: the first position at which `rs` occurs -/
def find (rs : List Char) : List Char → Option Nat
  | [] => if rs.isPrefixOf [] then some 0 else none
  | c :: s => if rs.isPrefixOf (c :: s) then some 0 else (find rs s).map (· + 1)

/-- `selectSome`, filehandling.py:19-39 -/
def selectSome (strings required : List (List Char)) (requireAll : Bool := true) : List (List Char) :=
  if required.length = 0 then strings
  else if requireAll then strings.filter fun s => !(required.any fun rs => (find rs s).isNone)
  else strings.filter fun s => required.any fun rs => (find rs s).isSome

/-! ### dictionaries in files -/

/-- a dictionary of lists -/
abbrev Dict (κ δ : Type) := List (κ × List δ)

/-- pickling -/
structure Pickle (D : Type) where
  encode : D → List UInt8
  decode : List UInt8 → Option D

section
variable {κ δ : Type} [DecidableEq κ]

/-- `pickleReadDict`, filehandling.py:54-63 -/
def readDict (pk : Pickle (Dict κ δ)) (file : Option (List UInt8)) : Dict κ δ :=
  match file with
  | none => []
  | some bytes => (pk.decode bytes).getD []

/-- `pickleDumpDict`, filehandling.py:42-51, that runs to its end. `text` says whether files opened with mode 'w' refuse bytes, as they do from Python 3 on: the file
is emptied, then writing raises and the exception is caught. -/
def dumpDict (pk : Pickle (Dict κ δ)) (text : Bool) (d : Dict κ δ) : Option (List UInt8) × Bool :=
  if text then (some [], false) else (some (pk.encode d), true)

/-- `pickleDumpDict` that is killed after `n` bytes have reached the disk -/
def dumpKilled (pk : Pickle (Dict κ δ)) (d : Dict κ δ) (n : Nat) : Option (List UInt8) := some ((pk.encode d).take n)

/-- `d[key] = []` if the key is new, and `d[key].append(data)`, filehandling.py:69-71 -/
def addTo (d : Dict κ δ) (key : κ) (data : δ) : Dict κ δ :=
  if d.any fun e => e.1 == key then d.map fun e => if e.1 = key then (e.1, e.2 ++ [data]) else e
  else d ++ [(key, [data])]

/-- `addToDictFile`, filehandling.py:66-74: what `pickleDumpDict` returns is ignored -/
def addToDictFile (pk : Pickle (Dict κ δ)) (text : Bool) (file : Option (List UInt8)) (key : κ) (data : δ) : Option (List UInt8) :=
  (dumpDict pk text (addTo (readDict pk file) key data)).1

/-- several calls -/
def addAll (pk : Pickle (Dict κ δ)) (text : Bool) (file : Option (List UInt8)) : List (κ × δ) → Option (List UInt8)
  | [] => file
  | e :: l => addAll pk text (addToDictFile pk text file e.1 e.2) l

/-! ### processes that share a file -/

/-- a process in `addToDictFile`: before reading, between reading and writing, or done -/
inductive Proc (κ δ : Type) where
  | todo (key : κ) (data : δ)
  | hasRead (d : Dict κ δ)
  | done

/-- one step of a process -/
def procStep (pk : Pickle (Dict κ δ)) (text : Bool) (file : Option (List UInt8)) : Proc κ δ → Option (List UInt8) × Proc κ δ
  | .todo key data => (file, .hasRead (addTo (readDict pk file) key data))
  | .hasRead d => ((dumpDict pk text d).1, .done)
  | .done => (file, .done)

/-- a schedule: which process takes the next step -/
def schedule (pk : Pickle (Dict κ δ)) (text : Bool) (file : Option (List UInt8)) (ps : List (Proc κ δ)) : List Nat → Option (List UInt8) × List (Proc κ δ)
  | [] => (file, ps)
  | i :: is =>
    match ps[i]? with
    | none => schedule pk text file ps is
    | some p => schedule pk text (procStep pk text file p).1 (ps.set i (procStep pk text file p).2) is

end
end Verif.FileHandling
