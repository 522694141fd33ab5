/-
What the property C29 says about a mask and the parameter values.
-/
namespace Verif.Masked.Spec

/-- the number of active parameters -/
def activeCount (mask : List Bool) : Nat := mask.count true

/-- the active parameter values, in order -/
def activeVals {K : Type} (mask : List Bool) (vals : List K) : List K := ((mask.zip vals).filter Prod.fst).map Prod.snd

/-- The container holds the value of every active parameter and zero for the others. -/
structure Consistent {K : Type} [Zero K] (mask : List Bool) (vals cont : List K) : Prop where
  len : vals.length = mask.length
  lenC : cont.length = mask.length
  on : ∀ i : Nat, mask[i]? = some true → cont[i]? = vals[i]?
  off : ∀ i : Nat, mask[i]? = some false → cont[i]? = some 0

end Verif.Masked.Spec
