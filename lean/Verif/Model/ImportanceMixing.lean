import Mathlib.Data.Real.Basic
import Mathlib.Order.Lattice
/-!
Model of pybrain/auxiliary/importancemixing.py:8-34.

The uniform draws and the draws of new points are arguments: `r i` is the number drawn for the old point at position `i`, `draws` the pairs
(uniform number, new point) of the second loop. That loop ends by itself only if enough points are accepted; `Fail.starved` says that `draws`
was used up before (the program would go on). The density functions may raise (`Fail.attribute`, see xnes.py). Floats are idealised.
-/

namespace Verif.Mixing

inductive Fail
  /-- an AttributeError raised by a density function -/
  | attribute
  /-- the given draws are used up: not a behaviour of the program -/
  | starved
  deriving DecidableEq, Repr

variable {X : Type}

/-- the test of importancemixing.py:17 -/
noncomputable def reuseTest (fr new old r : ℝ) : Bool := decide (r < (1 - fr) * new / old)

/-- the test of importancemixing.py:20 -/
noncomputable def enough (fr : ℝ) (batch reused : Nat) : Bool := decide ((batch : ℝ) - reused ≤ max 1 (batch * fr))

/-- the loop of importancemixing.py:15-21 from position `i` on -/
noncomputable def reuseLoop (fr : ℝ) (oldpdf newpdf : X → Except Fail ℝ) (r : Nat → ℝ) (batch : Nat) :
    List X → Nat → List Nat → Except Fail (List Nat)
  | [], _, res => .ok res
  | x :: xs, i, res =>
    match newpdf x with
    | .error e => .error e
    | .ok n =>
      match oldpdf x with
      | .error e => .error e
      | .ok o =>
        let res' := if reuseTest fr n o (r i) then res ++ [i] else res
        if enough fr batch res'.length then .ok res' else reuseLoop fr oldpdf newpdf r batch xs (i + 1) res'

/-- the loop of importancemixing.py:24-31; `missing` points are still to be found -/
noncomputable def fillLoop (fr : ℝ) (oldpdf newpdf : X → Except Fail ℝ) : List (ℝ × X) → Nat → List X → Except Fail (List X)
  | _, 0, res => .ok res
  | [], _ + 1, _ => .error .starved
  | (r, x) :: ds, missing + 1, res =>
    if r < fr then fillLoop fr oldpdf newpdf ds missing (res ++ [x])
    else
      match oldpdf x with
      | .error e => .error e
      | .ok o =>
        match newpdf x with
        | .error e => .error e
        | .ok n =>
          if r < 1 - o / n then fillLoop fr oldpdf newpdf ds missing (res ++ [x])
          else fillLoop fr oldpdf newpdf ds (missing + 1) res

/-- `importanceMixing`, importancemixing.py:8-32 -/
noncomputable def importanceMixing (old : List X) (oldpdf newpdf : X → Except Fail ℝ) (fr : ℝ) (r : Nat → ℝ) (draws : List (ℝ × X)) :
    Except Fail (List Nat × List X) :=
  match reuseLoop fr oldpdf newpdf r old.length old 0 [] with
  | .error e => .error e
  | .ok reused =>
    match fillLoop fr oldpdf newpdf draws (old.length - reused.length) [] with
    | .error e => .error e
    | .ok new => .ok (reused, new)

end Verif.Mixing
