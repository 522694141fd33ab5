import Verif.Model.Py
/-
Model of the integer and binary codes in pybrain/utilities.py. Natural numbers only (the docstrings speak of
binary representations; a negative argument of `asBinary` returns `str(i)` and is not modelled).
-/
namespace Verif.Codes

/-- `int2gray`, utilities.py:352-354 -/
def int2gray (i : Nat) : Nat := i ^^^ (i >>> 1)

/-- one turn of the loop of `gray2int`, utilities.py:360-366; the state is `(bi, res)`, `bi` is set in the first turn -/
def grayStep (g size : Nat) (s : Nat × Nat) (i : Nat) : Nat × Nat :=
  let gi := (g >>> i) % 2
  let bi := if i = size - 1 then gi else s.1 ^^^ gi
  (bi, s.2 + bi * 2 ^ i)

/-- `gray2int`, utilities.py:357-367 -/
def gray2int (g size : Nat) : Nat := ((List.range size).reverse.foldl (grayStep g size) (0, 0)).2

/-- `asBinary`, utilities.py:370-379, as a list of characters -/
def asBinary (i : Nat) : List Char :=
  if i > 1 then
    if i % 2 = 1 then asBinary (i >>> 1) ++ ['1'] else asBinary (i >>> 1) ++ ['0']
  else (toString i).toList
termination_by i
decreasing_by all_goals (rw [Nat.shiftRight_eq_div_pow]; omega)

/-- `one_to_n`, utilities.py:382-386; `none` is IndexError. -/
def one_to_n (val maxval : Nat) : Option (List Rat) :=
  if val < maxval then some ((List.replicate maxval 0).set val 1) else none

/-- `n_to_one`, utilities.py:389-391: the first position that holds 1; `none` is IndexError. -/
def n_to_one (arr : List Rat) : Option Nat := arr.findIdx? (fun v => decide (v = 1))

/-- the eight bits of one byte of `packbits`, most significant first, missing bits are 0 -/
def packByte (bits : List Nat) : Nat :=
  (List.range 8).foldl (fun acc k => 2 * acc + (if bits.getD k 0 = 0 then 0 else 1)) 0

/-- `numpy.packbits` of a vector: zeros are appended up to a multiple of 8. The first argument bounds the number of
bytes. -/
def packbits : Nat → List Nat → List Nat
  | _, [] => []
  | 0, _ => []
  | n + 1, l => packByte (l.take 8) :: packbits n (l.drop 8)

/-- `binArr2int`, utilities.py:740-744 -/
def binArr2int (arr : List Nat) : Nat :=
  let tmp2 := packbits arr.length arr
  (tmp2.reverse.zipIdx.map (fun (v : Nat × Nat) => v.1 * 256 ^ v.2)).sum

end Verif.Codes
