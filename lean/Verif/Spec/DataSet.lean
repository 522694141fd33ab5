import Verif.Model.DataSet
/-
Specification of a data set as seen by its user: named tables (number of columns, list of rows),
a list of linked names and nothing else. No buffers, no end markers.
-/
namespace Verif.DataSet.Spec
open Verif.DataSet

structure Tables (K : Type) where
  table : String → Option (Nat × List (List K))
  link : List String

def Tables.empty {K : Type} : Tables K := { table := fun _ => none, link := [] }

/-- Number of rows of table `l`. -/
def Tables.len {K : Type} (t : Tables K) (l : String) : Option Nat := (t.table l).map (fun p => p.2.length)

/-- Replace one table. -/
def Tables.set {K : Type} (t : Tables K) (l : String) (dim : Nat) (rows : List (List K)) : Tables K :=
  { t with table := fun q => if q = l then some (dim, rows) else t.table q }

/-- Add one row at the end of table `l`; `none` if there is no such table or the row does not fit. -/
def Tables.push {K : Type} (t : Tables K) (l : String) (row : List K) : Option (Tables K) :=
  match t.table l with
  | none => none
  | some (dim, rows) =>
    match broadcast dim row with
    | none => none
    | some r => some (t.set l dim (rows ++ [r]))

/-- Add one row to each of several tables, in order, stopping at the first that does not fit. -/
def Tables.pushAll {K : Type} (t : Tables K) : List (String × List K) → Tables K
  | [] => t
  | (l, row) :: rest =>
    match t.push l row with
    | none => t
    | some t' => t'.pushAll rest

/-- The effect of each public call on the tables. -/
def step {K : Type} (t : Tables K) : Op K → Tables K
  | .addField l n => t.set l n []
  | .setField l n rows => if ∀ r ∈ rows, r.length = n then t.set l n rows else t
  | .linkFields ls =>
    match ls with
    | [] => t
    | l0 :: _ =>
      if t.len l0 ≠ none ∧ ∀ l ∈ ls, t.len l = t.len l0 then { t with link := ls } else t
  | .unlinkFields none => { t with link := [] }
  | .unlinkFields (some ls) => { t with link := ls.foldl List.erase t.link }
  | .append l row => if l ∈ t.link then t else (t.push l row).getD t
  | .appendLinked args => if args.length = t.link.length then t.pushAll (t.link.zip args) else t
  | .getLinked _ => t
  | .convertField _ => t
  | .reset => t
  | .clear u => { t with table := fun q => if (t.link = [] ∨ u = true) ∨ q ∈ t.link
                                  then (t.table q).map (fun p => (p.1, [])) else t.table q }
  | .compact => t

/-- A history of calls. -/
def run {K : Type} (t : Tables K) : List (Op K) → Tables K
  | [] => t
  | op :: ops => run (step t op) ops

end Verif.DataSet.Spec
