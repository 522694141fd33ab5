import Verif.Model.DataSet
/-
Model of pybrain/tools/kwargsprocessor.py.
-/
namespace Verif.KWArgs
open Verif.DataSet (Err)

variable {V : Type}

/-- `KWArgDsc`, kwargsprocessor.py:5-18 -/
structure Dsc (V : Type) where
  name : String
  priv : Bool := false
  mandatory : Bool := false
  dflt : Option V := none

/-- the name of the attribute, kwargsprocessor.py:36-40 -/
def Dsc.attr (d : Dsc V) : String := if d.priv then "_" ++ d.name else d.name

/-- `setattr` -/
def setattr (obj : String → Option V) (a : String) (v : V) : String → Option V := fun b => if b = a then some v else obj b

/-- `kwargs.get(name)` -/
def arg (kwargs : List (String × V)) (name : String) : Option V := (kwargs.find? fun e => decide (e.1 = name)).map Prod.snd

/-- `KWArgsProcessor.add`, kwargsprocessor.py:30-50: the attributes of the object, and the exception raised -/
def add (kwargs : List (String × V)) (obj : String → Option V) (d : Dsc V) : (String → Option V) × Option Err :=
  if d.mandatory && d.dflt.isSome then (obj, some .assertion)
  else
    match arg kwargs d.name with
    | some v => (setattr obj d.attr v, none)
    | none =>
      match d.dflt with
      | some v => (setattr obj d.attr v, none)
      | none => if d.mandatory then (obj, some .keyError) else (obj, none)

/-- several arguments, one after the other -/
def addAll (kwargs : List (String × V)) : (String → Option V) → List (Dsc V) → (String → Option V) × Option Err
  | obj, [] => (obj, none)
  | obj, d :: ds =>
    match add kwargs obj d with
    | (obj', some e) => (obj', some e)
    | (obj', none) => addAll kwargs obj' ds

end Verif.KWArgs
