/-
Small helpers for Python semantics shared by all model files.

These are not models of code in /repo but of the Python language / numpy features the code uses:
negative list indices, slice clamping and insertion-ordered dictionaries.
-/
deriving instance DecidableEq for Except

namespace Verif.Py

/-- Python index normalisation: `l[i]` for a list of length `n` addresses position
`i` if `0 ≤ i < n`, position `n + i` if `-n ≤ i < 0`, and raises `IndexError` otherwise (`none`). -/
def normIdx (n : Nat) (i : Int) : Option Nat :=
  if 0 ≤ i then (if i < n then some i.toNat else none)
  else if 0 ≤ (n : Int) + i then some ((n : Int) + i).toNat else none

/-- `l[i]` with Python's negative index rule; `none` is `IndexError`. -/
def getIdx {α : Type} (l : List α) (i : Int) : Option α :=
  (normIdx l.length i).bind (fun k => l[k]?)

/-- Clamp a slice bound as Python does. -/
def clampBound (n : Nat) (i : Int) : Nat :=
  if 0 ≤ i then min i.toNat n else ((n : Int) + i).toNat

/-- `l[a:b]` with Python's negative-bound and clamping rules. -/
def slice {α : Type} (l : List α) (a b : Int) : List α :=
  (l.take (clampBound l.length b)).drop (clampBound l.length a)

/-- `l[a:]`. -/
def sliceFrom {α : Type} (l : List α) (a : Int) : List α :=
  l.drop (clampBound l.length a)

/-- `l[:b]`. -/
def sliceTo {α : Type} (l : List α) (b : Int) : List α :=
  l.take (clampBound l.length b)

/-- Dictionary lookup on an insertion-ordered association list. -/
def dget {κ α : Type} [DecidableEq κ] : List (κ × α) → κ → Option α
  | [], _ => none
  | (k, v) :: rest, q => if k = q then some v else dget rest q

/-- Dictionary assignment `d[k] = v`: overwrites in place, or inserts at the end. -/
def dset {κ α : Type} [DecidableEq κ] : List (κ × α) → κ → α → List (κ × α)
  | [], k, v => [(k, v)]
  | (k', v') :: rest, k, v => if k' = k then (k, v) :: rest else (k', v') :: dset rest k v

/-- Deleting a key (`del d[k]`, all occurrences; keys are unique in reachable dictionaries). -/
def ddel {κ α : Type} [DecidableEq κ] (d : List (κ × α)) (k : κ) : List (κ × α) :=
  d.filter (fun p => p.1 ≠ k)

theorem dget_dset {κ α : Type} [DecidableEq κ] (d : List (κ × α)) (k q : κ) (v : α) :
    dget (dset d k v) q = if k = q then some v else dget d q := by
  induction d with
  | nil => simp [dset, dget]
  | cons p rest ih =>
    obtain ⟨k', v'⟩ := p
    by_cases h : k' = k
    · subst h; by_cases h2 : k' = q <;> simp [dset, dget, h2]
    · by_cases h2 : k' = q
      · subst h2; simp [dset, dget, h, Ne.symm h]
      · simp [dset, dget, h, h2, ih]

theorem dget_dset_self {κ α : Type} [DecidableEq κ] (d : List (κ × α)) (k : κ) (v : α) :
    dget (dset d k v) k = some v := by simp [dget_dset]

theorem dget_dset_ne {κ α : Type} [DecidableEq κ] (d : List (κ × α)) (k q : κ) (v : α) (h : k ≠ q) :
    dget (dset d k v) q = dget d q := by simp [dget_dset, h]

theorem dget_map {κ α β : Type} [DecidableEq κ] (d : List (κ × α)) (f : κ → α → β) (q : κ) :
    dget (d.map (fun p => (p.1, f p.1 p.2))) q = (dget d q).map (f q) := by
  induction d with
  | nil => simp [dget]
  | cons p rest ih =>
    by_cases h : p.1 = q
    · simp [dget, h]
    · simp [dget, h, ih]

/-- On a non-negative in-range index Python indexing is ordinary indexing. -/
theorem getIdx_ofNat {α : Type} (l : List α) (i : Nat) : getIdx l (i : Int) = l[i]? := by
  unfold getIdx normIdx
  by_cases h : i < l.length
  · simp [h]
  · simp [h]

theorem slice_ofNat {α : Type} (l : List α) (a b : Nat) : slice l a b = (l.take b).drop a := by
  unfold slice clampBound
  simp only [Int.natCast_nonneg, if_true, Int.toNat_natCast]
  rw [Nat.min_comm b, List.take_eq_take_min (i := b), Nat.min_comm b]
  by_cases h : a ≤ l.length
  · rw [Nat.min_eq_left h]
  · have h1 : min a l.length = l.length := by omega
    rw [h1, List.drop_eq_nil_of_le (by simp only [List.length_take]; omega), List.drop_eq_nil_of_le (by simp only [List.length_take]; omega)]

theorem sliceFrom_ofNat {α : Type} (l : List α) (a : Nat) : sliceFrom l a = l.drop a := by
  unfold sliceFrom clampBound
  simp only [Int.natCast_nonneg, if_true, Int.toNat_natCast]
  by_cases h : a ≤ l.length
  · rw [Nat.min_eq_left h]
  · rw [List.drop_eq_nil_of_le (by omega), List.drop_eq_nil_of_le (by omega)]

theorem sliceTo_ofNat {α : Type} (l : List α) (b : Nat) : sliceTo l b = l.take b := by
  unfold sliceTo clampBound
  simp only [Int.natCast_nonneg, if_true, Int.toNat_natCast]
  rw [Nat.min_comm b, List.take_eq_take_min (i := b), Nat.min_comm b]

end Verif.Py
