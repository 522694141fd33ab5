import Verif.Model.Windows
/-
Time windows of sequences.
-/
namespace Verif.Windows.Spec

variable {K : Type}

/-- A sequence of samples (input, target). -/
abbrev Sequence (K : Type) := List (List K × List K)

/-- Starts of the sequences when they are stored one after the other, the first at `s`. -/
def starts : Nat → List (Sequence K) → List Nat
  | _, [] => []
  | s, q :: qs => s :: starts (s + q.length) qs

/-- The arrays of a dataset that holds the sequences. -/
def arrays (qs : List (Sequence K)) : Arrays K :=
  { input := qs.flatten.map Prod.fst, target := qs.flatten.map Prod.snd, seqIndex := starts 0 qs }

/-- The `j`-th window of `w` samples: the inputs `j*w, …, j*w + w - 1` in a row, and the target of the
last of them. -/
def window (w : Nat) (q : Sequence K) (j : Nat) : Option (List K × List K) :=
  (q[j * w + (w - 1)]?).map (fun last => ((((q.drop (j * w)).take w).map Prod.fst).flatten, last.2))

/-- All non-overlapping full windows of a sequence. -/
def fullWindows (w : Nat) (q : Sequence K) : List (List K × List K) := (List.range (q.length / w)).filterMap (window w q)

end Verif.Windows.Spec
