import Verif.Model.Normalizer
import Mathlib.Tactic.Linarith
import Mathlib.Tactic.FieldSimp
import Mathlib.Tactic.Ring
import Mathlib.Tactic.NormNum
/-
C73: normalisation of datasets.
-/
namespace Verif.Normalizer
open Verif.DataSet (Err)

theorem foldl_min_spec : ∀ (l : List ℝ) (x : ℝ), l.foldl min x ≤ x ∧ (∀ y ∈ l, l.foldl min x ≤ y) ∧ (l.foldl min x = x ∨ l.foldl min x ∈ l) := by
  intro l
  induction l with
  | nil => intro x; simp
  | cons a l ih =>
    intro x
    obtain ⟨h1, h2, h3⟩ := ih (min x a)
    rw [List.foldl_cons]
    refine ⟨le_trans h1 (min_le_left _ _), ?_, ?_⟩
    · intro y hy
      rcases List.mem_cons.1 hy with rfl | hy
      · exact le_trans h1 (min_le_right _ _)
      · exact h2 y hy
    · rcases h3 with h3 | h3
      · rcases min_choice x a with hm | hm
        · left; rw [h3, hm]
        · right; rw [h3, hm]; simp
      · right; simp [h3]

theorem foldl_max_spec : ∀ (l : List ℝ) (x : ℝ), x ≤ l.foldl max x ∧ (∀ y ∈ l, y ≤ l.foldl max x) ∧ (l.foldl max x = x ∨ l.foldl max x ∈ l) := by
  intro l
  induction l with
  | nil => intro x; simp
  | cons a l ih =>
    intro x
    obtain ⟨h1, h2, h3⟩ := ih (max x a)
    rw [List.foldl_cons]
    refine ⟨le_trans (le_max_left _ _) h1, ?_, ?_⟩
    · intro y hy
      rcases List.mem_cons.1 hy with rfl | hy
      · exact le_trans (le_max_right _ _) h1
      · exact h2 y hy
    · rcases h3 with h3 | h3
      · rcases max_choice x a with hm | hm
        · left; rw [h3, hm]
        · right; rw [h3, hm]; simp
      · right; simp [h3]

theorem colMin_spec (c : List ℝ) (h : c ≠ []) : colMin c ∈ c ∧ ∀ y ∈ c, colMin c ≤ y := by
  cases c with
  | nil => exact absurd rfl h
  | cons x l =>
    obtain ⟨h1, h2, h3⟩ := foldl_min_spec l x
    refine ⟨?_, ?_⟩
    · rcases h3 with h3 | h3
      · rw [colMin, h3]; simp
      · rw [colMin]; simp [h3]
    · intro y hy
      rcases List.mem_cons.1 hy with rfl | hy
      · exact h1
      · exact h2 y hy

theorem colMax_spec (c : List ℝ) (h : c ≠ []) : colMax c ∈ c ∧ ∀ y ∈ c, y ≤ colMax c := by
  cases c with
  | nil => exact absurd rfl h
  | cons x l =>
    obtain ⟨h1, h2, h3⟩ := foldl_max_spec l x
    refine ⟨?_, ?_⟩
    · rcases h3 with h3 | h3
      · rw [colMax, h3]; simp
      · rw [colMax]; simp [h3]
    · intro y hy
      rcases List.mem_cons.1 hy with rfl | hy
      · exact h1
      · exact h2 y hy

theorem sum_map_affine (l : List ℝ) (a d : ℝ) : (l.map (fun x => (x - a) / d)).sum = (l.sum - l.length * a) / d := by
  induction l with
  | nil => simp
  | cons x l ih => rw [List.map_cons, List.sum_cons, ih, List.sum_cons, List.length_cons]; push_cast; ring

theorem sum_map_sq (l : List ℝ) (a d : ℝ) : (l.map (fun x => ((x - a) / d) ^ 2)).sum = (l.map (fun x => (x - a) ^ 2)).sum / d ^ 2 := by
  induction l with
  | nil => simp
  | cons x l ih => rw [List.map_cons, List.sum_cons, ih, List.map_cons, List.sum_cons, add_div, div_pow]

theorem sum_sq_nonneg (l : List ℝ) (a : ℝ) : 0 ≤ (l.map (fun x => (x - a) ^ 2)).sum := by
  induction l with
  | nil => simp
  | cons x l ih => rw [List.map_cons, List.sum_cons]; positivity

theorem sum_sq_zero (l : List ℝ) (a : ℝ) (h : (l.map (fun x => (x - a) ^ 2)).sum = 0) : ∀ x ∈ l, x = a := by
  induction l with
  | nil => simp
  | cons x l ih =>
    rw [List.map_cons, List.sum_cons] at h
    have h1 := sum_sq_nonneg l a
    have h2 : 0 ≤ (x - a) ^ 2 := sq_nonneg _
    intro y hy
    rcases List.mem_cons.1 hy with rfl | hy
    · have h0 : (y - a) ^ 2 = 0 := by linarith
      have : y - a = 0 := by simpa using h0
      linarith
    · exact ih (by linarith) y hy

theorem colStd_pos (c : List ℝ) (h : ∃ x ∈ c, ∃ y ∈ c, x ≠ y) : 0 < colStd c := by
  unfold colStd
  obtain ⟨x, hx, y, hy, hxy⟩ := h
  have hl : 0 < c.length := List.length_pos_iff.2 (by rintro rfl; simp at hx)
  rw [Real.sqrt_pos]
  refine div_pos ?_ (by exact_mod_cast hl)
  rcases (sum_sq_nonneg c (colMean c)).lt_or_eq with h | h
  · exact h
  · exfalso
    have := sum_sq_zero c (colMean c) h.symm
    exact hxy ((this x hx).trans (this y hy).symm)

theorem colStd_sq (c : List ℝ) : colStd c ^ 2 = (c.map (fun x => (x - colMean c) ^ 2)).sum / c.length := by
  unfold colStd
  rw [Real.sq_sqrt]
  exact div_nonneg (sum_sq_nonneg _ _) (Nat.cast_nonneg _)

theorem colMean_constant (c : List ℝ) (hc : c ≠ []) (h : ∀ x ∈ c, ∀ y ∈ c, x = y) : ∀ x ∈ c, x = colMean c := by
  intro x hx
  have : c.sum = c.length * x := by
    have : ∀ l : List ℝ, (∀ y ∈ l, y = x) → l.sum = l.length * x := by
      intro l
      induction l with
      | nil => simp
      | cons a l ih =>
        intro hl
        rw [List.sum_cons, ih (fun y hy => hl y (by simp [hy])), hl a (by simp), List.length_cons]
        push_cast; ring
    exact this c (fun y hy => h y hy x hx)
  unfold colMean
  rw [this]
  have : (c.length : ℝ) ≠ 0 := by
    have := List.length_pos_iff.2 hc
    exact_mod_cast this.ne'
  field_simp

theorem normalize_minmax (n : Normalizer) (hn : n.meanstd = false) (cols : List (List ℝ)) (hc : cols ≠ []) (b0 b1 : ℝ) :
    ∃ out, normalize (calculate n cols b0 b1) cols = .ok out ∧ out.length = cols.length ∧
      ∀ (i : Nat) (c : List ℝ), cols[i]? = some c →
        out[i]? = some (c.map (fun x => (x - colMin c) * ((fdiv (b1 - b0) (colMax c - colMin c)).getD 1) + b0)) := by
  refine ⟨cols.zipIdx.map (fun ci => ci.1.map (fun x => (x - (cols.map colMin).getD ci.2 0) * (((cols.map (fun c => fdiv (b1 - b0) (colMax c - colMin c))).getD ci.2 none).getD 1) + b0)), ?_, ?_, ?_⟩
  · unfold normalize calculate
    simp only [hn, Bool.false_eq_true, if_false]
    rw [if_neg (by have := List.length_pos_iff.2 hc; omega), if_neg (by simp)]
  · simp
  · intro i c hi
    rw [List.getElem?_map, List.getElem?_zipIdx, hi]
    simp only [Option.map_some, Nat.zero_add, List.getD_eq_getElem?_getD, List.getElem?_map, hi, Option.getD_some]

theorem normalize_meanstd (n : Normalizer) (hn : n.meanstd = true) (cols : List (List ℝ)) (hc : cols ≠ []) (b0 b1 : ℝ) :
    ∃ out, normalize (calculate n cols b0 b1) cols = .ok out ∧ out.length = cols.length ∧
      ∀ (i : Nat) (c : List ℝ), cols[i]? = some c →
        out[i]? = some (c.map (fun x => (x - colMean c) / divisor (colStd c))) := by
  refine ⟨cols.zipIdx.map (fun ci => ci.1.map (fun x => (x - (cols.map colMean).getD ci.2 0) / divisor ((cols.map colStd).getD ci.2 0))), ?_, ?_, ?_⟩
  · unfold normalize calculate
    simp only [hn, if_true]
    rw [if_neg (by have := List.length_pos_iff.2 hc; omega), if_neg (by simp)]
  · simp
  · intro i c hi
    rw [List.getElem?_map, List.getElem?_zipIdx, hi]
    simp only [Option.map_some, Nat.zero_add, List.getD_eq_getElem?_getD, List.getElem?_map, hi, Option.getD_some]

theorem lines_none : ∀ (l : List Char), '\n' ∉ l → (lines l).length ≤ 1 := by
  intro l
  induction l with
  | nil => intro _; simp [lines]
  | cons c l ih =>
    intro h
    simp only [List.mem_cons, not_or] at h
    have := ih h.2
    rw [lines, if_neg (fun e => h.1 e.symm)]
    cases hl : lines l with
    | nil => simp
    | cons a as => rw [hl] at this; simpa using this

end Verif.Normalizer

namespace Verif.Props

open Verif.Normalizer
open Verif.DataSet (Err)

/-- C73: after `calculate` on a dataset (in min/max mode), `normalize` maps every value of every
non-constant column into the bounds, smallest values to the lower bound, largest to the upper one, keeping
the order; constant columns become the lower bound. -/
theorem C73_minmax (n : Normalizer) (hn : n.meanstd = false) (cols : List (List ℝ)) (hc : cols ≠ []) (hne : ∀ c ∈ cols, c ≠ []) (b0 b1 : ℝ) (hb : b0 < b1) :
    ∃ out, Normalizer.normalize (calculate n cols b0 b1) cols = .ok out ∧ out.length = cols.length ∧
      ∀ (i : Nat) (c : List ℝ), cols[i]? = some c → ∃ f : ℝ → ℝ, out[i]? = some (c.map f) ∧
        ((∃ x ∈ c, ∃ y ∈ c, x ≠ y) → StrictMono f ∧ (∀ x ∈ c, b0 ≤ f x ∧ f x ≤ b1) ∧ (∃ x ∈ c, f x = b0) ∧ (∃ x ∈ c, f x = b1)) ∧
        ((∀ x ∈ c, ∀ y ∈ c, x = y) → ∀ x ∈ c, f x = b0) := by
  obtain ⟨out, h1, h2, h3⟩ := normalize_minmax n hn cols hc b0 b1
  refine ⟨out, h1, h2, ?_⟩
  intro i c hi
  have hcne := hne c (List.mem_of_getElem? hi)
  obtain ⟨m1, m2⟩ := colMin_spec c hcne
  obtain ⟨M1, M2⟩ := colMax_spec c hcne
  refine ⟨_, h3 i c hi, ?_, ?_⟩
  · rintro ⟨x, hx, y, hy, hxy⟩
    have hlt : 0 < colMax c - colMin c := by
      rcases lt_or_gt_of_ne hxy with h | h
      · have := m2 x hx; have := M2 y hy; linarith
      · have := m2 y hy; have := M2 x hx; linarith
    have hs : (fdiv (b1 - b0) (colMax c - colMin c)).getD 1 = (b1 - b0) / (colMax c - colMin c) := by
      unfold fdiv; rw [if_neg hlt.ne']; rfl
    rw [hs]
    have hpos : 0 < (b1 - b0) / (colMax c - colMin c) := div_pos (by linarith) hlt
    have hmax : (colMax c - colMin c) * ((b1 - b0) / (colMax c - colMin c)) + b0 = b1 := by
      field_simp; ring
    refine ⟨?_, ?_, ⟨colMin c, m1, by simp⟩, ⟨colMax c, M1, hmax⟩⟩
    · intro u v huv
      have := mul_lt_mul_of_pos_right (sub_lt_sub_right huv (colMin c)) hpos
      dsimp only
      linarith
    · intro u hu
      have g1 := m2 u hu
      have g2 := M2 u hu
      refine ⟨?_, ?_⟩
      · have := mul_nonneg (sub_nonneg.2 g1) hpos.le
        linarith
      · have := mul_le_mul_of_nonneg_right (sub_le_sub_right g2 (colMin c)) hpos.le
        linarith
  · intro hall x hx
    have : x = colMin c := hall x hx _ m1
    rw [this]; simp

/-- C73: in mean/std mode every normalised column has mean zero, and variance one unless it was
constant (then it is zero). -/
theorem C73_meanstd (n : Normalizer) (hn : n.meanstd = true) (cols : List (List ℝ)) (hc : cols ≠ []) (hne : ∀ c ∈ cols, c ≠ []) (b0 b1 : ℝ) :
    ∃ out, Normalizer.normalize (calculate n cols b0 b1) cols = .ok out ∧ out.length = cols.length ∧
      ∀ (i : Nat) (c : List ℝ), cols[i]? = some c → ∃ o : List ℝ, out[i]? = some o ∧ o.length = c.length ∧ o.sum / (o.length : ℝ) = 0 ∧
        ((∃ x ∈ c, ∃ y ∈ c, x ≠ y) → (o.map (fun x : ℝ => x ^ 2)).sum / (o.length : ℝ) = 1) ∧
        ((∀ x ∈ c, ∀ y ∈ c, x = y) → ∀ x ∈ o, x = 0) := by
  obtain ⟨out, h1, h2, h3⟩ := normalize_meanstd n hn cols hc b0 b1
  refine ⟨out, h1, h2, ?_⟩
  intro i c hi
  have hcne := hne c (List.mem_of_getElem? hi)
  have hl : (c.length : ℝ) ≠ 0 := by
    have := List.length_pos_iff.2 hcne
    exact_mod_cast this.ne'
  refine ⟨_, h3 i c hi, by simp, ?_, ?_, ?_⟩
  · rw [sum_map_affine]
    have : c.sum - c.length * colMean c = 0 := by
      unfold colMean; field_simp; ring
    rw [this]; simp
  · intro hd
    have hpos := colStd_pos c hd
    have hdiv : divisor (colStd c) = colStd c := by unfold divisor; rw [if_pos hpos]
    rw [hdiv, List.map_map, List.length_map]
    have : ((fun x : ℝ => x ^ 2) ∘ fun x => (x - colMean c) / colStd c) = fun x => ((x - colMean c) / colStd c) ^ 2 := rfl
    rw [this, sum_map_sq]
    have hsq := colStd_sq c
    have hne0 : colStd c ^ 2 ≠ 0 := by positivity
    rw [div_right_comm, ← hsq, div_self hne0]
  · intro hall x hx
    rw [List.mem_map] at hx
    obtain ⟨y, hy, rfl⟩ := hx
    have := colMean_constant c hcne hall y hy
    rw [← this]; simp

/-- C73: without parameters, or for a field of another dimension, `normalize` raises `IndexError`. -/
theorem C73_errors (n : Normalizer) (cols : List (List ℝ)) (h : n.dim = 0 ∨ n.dim ≠ cols.length) : Normalizer.normalize n cols = .error .indexError := by
  unfold Normalizer.normalize
  by_cases h0 : n.dim ≤ 0
  · rw [if_pos h0]
  · rw [if_neg h0, if_pos (by omega)]

/-- C73: saved parameters can never be loaded again, whatever the number formats: `save` does not end its
lines, so that `load` finds no parameter line. -/
theorem C73_negation_save (fmt : ℝ → List Char) (idx : Nat → List Char) (hf : ∀ x, '\n' ∉ fmt x) (hi : ∀ i, '\n' ∉ idx i)
    (parse : List Char → Option (List ℝ)) (n : Normalizer) : ∃ e, load parse (save fmt idx n) = .error e := by
  have hrest : ∀ l : List Char, l = fmt n.newmin ++ [' '] ++ fmt n.newmax ++
      (List.range n.dim).flatMap (fun i => idx (i + 1) ++ [' '] ++ fmt (n.par1.getD i 0) ++ [' '] ++ fmt (n.par2.getD i 0)) → '\n' ∉ l := by
    intro l hl
    rw [hl]
    simp only [List.mem_append, List.mem_flatMap, List.mem_singleton, not_or, not_exists, not_and]
    exact ⟨⟨⟨hf _, by decide⟩, hf _⟩, fun i _ => ⟨⟨⟨⟨hi _, by decide⟩, hf _⟩, by decide⟩, hf _⟩⟩
  obtain ⟨tail, ht⟩ : ∃ tail, tail = fmt n.newmin ++ [' '] ++ fmt n.newmax ++
      (List.range n.dim).flatMap (fun i => idx (i + 1) ++ [' '] ++ fmt (n.par1.getD i 0) ++ [' '] ++ fmt (n.par2.getD i 0)) := ⟨_, rfl⟩
  have hs : save fmt idx n = 'x' :: '\n' :: tail := by
    rw [ht]; unfold save; simp
  have hlen := lines_none tail (hrest tail ht)
  have hl : lines ('x' :: '\n' :: tail) = ['x', '\n'] :: lines tail := by
    simp [lines]
  unfold load
  rw [hs, hl]
  cases hlt : lines tail with
  | nil => exact ⟨_, rfl⟩
  | cons b rest =>
    rw [hlt] at hlen
    have : rest = [] := by
      cases rest with
      | nil => rfl
      | cons a as => simp at hlen
    subst this
    dsimp only
    cases hp : parse b with
    | none => exact ⟨_, rfl⟩
    | some bounds => exact ⟨.indexError, by simp⟩

/-- C73: and even a correct file that starts with the line `x` is read as mean/std parameters, because the
line read includes its end. -/
theorem C73_negation_mode (parse : List Char → Option (List ℝ)) (text : List Char) (n : Normalizer) (h : load parse ('x' :: '\n' :: text) = .ok n) :
    n.meanstd = true := by
  have hl : lines ('x' :: '\n' :: text) = ['x', '\n'] :: lines text := by simp [lines]
  unfold load at h
  rw [hl] at h
  cases ht : lines text with
  | nil => rw [ht] at h; cases h
  | cons b rest =>
    rw [ht] at h
    dsimp only at h
    split at h
    · split at h
      · cases h
      · cases h; simp
    · cases h

/-- a normaliser without parameters -/
noncomputable def Normalizer.fresh (m : Bool) : Normalizer := ⟨m, 0, [], [], [], 0, 0⟩

example : ∃ out, Normalizer.normalize (calculate (Normalizer.fresh false) [[1, 3, 2], [5, 5, 5]] (-1) 1) [[1, 3, 2], [5, 5, 5]] = .ok out ∧ out.length = 2 :=
  let ⟨out, h1, h2, _⟩ := C73_minmax (Normalizer.fresh false) rfl [[1, 3, 2], [5, 5, 5]] (by simp) (by simp) (-1) 1 (by norm_num)
  ⟨out, h1, h2⟩
example : ∃ out, Normalizer.normalize (calculate (Normalizer.fresh true) [[1, 3, 2], [5, 5, 5]] (-1) 1) [[1, 3, 2], [5, 5, 5]] = .ok out ∧ out.length = 2 :=
  let ⟨out, h1, h2, _⟩ := C73_meanstd (Normalizer.fresh true) rfl [[1, 3, 2], [5, 5, 5]] (by simp) (by simp) (-1) 1
  ⟨out, h1, h2⟩
example : ∃ n : Normalizer, load (fun _ => some [1, 2, 3]) ['x', '\n', 'a', '\n', 'b'] = .ok n :=
  ⟨_, by simp only [load, lines]; simp; rfl⟩

end Verif.Props
