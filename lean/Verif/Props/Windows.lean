import Verif.Spec.Windows
import Mathlib.Tactic.Ring
/-
C50: cutting sequences into time windows.
-/
namespace Verif.Windows
set_option linter.unusedSectionVars false
open Spec
open Verif.DataSet (Err)

variable {K : Type}

theorem rows_map {α β : Type} (f : α → β) (l : List α) (s e : Nat) : rows (l.map f) s e = (rows l s e).map f := by
  simp [rows, List.map_take, List.map_drop]

theorem cutLoop_eq (w : Nat) (hw : 0 < w) (q : Sequence K) : ∀ (fuel j : Nat), (q.length - 1) / w - j < fuel →
    cutLoop (q.map Prod.fst) (q.map Prod.snd) w fuel ((j + 1) * w) = .ok ((List.range' j ((q.length - 1) / w - j)).filterMap (window w q)) := by
  intro fuel
  induction fuel with
  | zero => intro j h; omega
  | succ fuel ih =>
    intro j hf
    rw [cutLoop, List.length_map]
    by_cases h : (j + 1) * w < q.length
    · rw [if_pos h]
      have hj : j + 1 ≤ (q.length - 1) / w := by
        rw [Nat.le_div_iff_mul_le hw]; omega
      have hle : w ≤ (j + 1) * w := by rw [Nat.add_mul]; omega
      have hlt : (j + 1) * w - 1 < q.length := by omega
      have hk : (j + 1) * w - 1 = j * w + (w - 1) := by rw [Nat.add_mul]; omega
      have ht : (q.map Prod.snd)[(j + 1) * w - 1]? = some (q[(j + 1) * w - 1]).2 := by
        rw [List.getElem?_map, List.getElem?_eq_getElem hlt]; rfl
      rw [ht]
      dsimp only
      have := ih (j + 1) (by omega)
      rw [show (j + 1) * w + w = (j + 1 + 1) * w by ring, this]
      dsimp only
      have hr : (q.length - 1) / w - j = ((q.length - 1) / w - (j + 1)) + 1 := by omega
      rw [hr, List.range'_succ, List.filterMap_cons]
      have hwin : window w q j = some ((rows (q.map Prod.fst) ((j + 1) * w - w) ((j + 1) * w)).flatten, (q[(j + 1) * w - 1]).2) := by
        unfold window
        rw [← hk, List.getElem?_eq_getElem hlt, Option.map_some]
        congr 2
        rw [rows_map, rows, List.drop_take, show (j + 1) * w - w = j * w by rw [Nat.add_mul]; omega,
          show (j + 1) * w - j * w = w by rw [Nat.add_mul]; omega]
      rw [hwin]
    · rw [if_neg h]
      have : (q.length - 1) / w ≤ j := by
        by_contra hc
        have : j + 1 ≤ (q.length - 1) / w := by omega
        rw [Nat.le_div_iff_mul_le hw] at this
        have h1 : w ≤ (j + 1) * w := by rw [Nat.add_mul]; omega
        omega
      rw [show (q.length - 1) / w - j = 0 by omega]
      rfl

theorem cut_eq (w : Nat) (hw : 0 < w) (q : Sequence K) :
    cut (q.map Prod.fst) (q.map Prod.snd) w = .ok ((List.range ((q.length - 1) / w)).filterMap (window w q)) := by
  unfold cut
  rw [if_neg (by omega), List.length_map]
  rcases Nat.eq_zero_or_pos q.length with h0 | h0
  · rw [h0]
    simp [cutLoop]
  · have hd : (q.length - 1) / w < q.length := lt_of_le_of_lt (Nat.div_le_self _ _) (by omega)
    have := cutLoop_eq w hw q q.length 0 (by omega)
    rw [Nat.zero_add, Nat.one_mul, Nat.sub_zero] at this
    rw [this, List.range_eq_range']

theorem window_some (w : Nat) (q : Sequence K) (j : Nat) (hw : 0 < w) (h : j < q.length / w) : (window w q j).isSome := by
  unfold window
  have h1 : (j + 1) * w ≤ q.length := by
    rw [← Nat.le_div_iff_mul_le hw]; omega
  rw [Nat.add_mul] at h1
  rw [Option.isSome_map, List.getElem?_eq_getElem (by omega)]
  rfl

theorem filterMap_range_take {α : Type} (f : Nat → Option α) : ∀ (n m : Nat), m ≤ n → (∀ i < n, (f i).isSome) →
    ((List.range n).filterMap f).take m = (List.range m).filterMap f := by
  intro n
  induction n with
  | zero => intro m h _; rw [show m = 0 by omega]; simp
  | succ n ih =>
    intro m h hs
    rcases Nat.lt_or_eq_of_le h with h1 | h1
    · rw [List.range_succ, List.filterMap_append, List.take_append_of_le_length, ih m (by omega) (fun i hi => hs i (by omega))]
      have : ((List.range n).filterMap f).length = n := by
        clear ih h h1
        induction n with
        | zero => rfl
        | succ n ih =>
          have hn := hs n (by omega)
          obtain ⟨x, hx⟩ := Option.isSome_iff_exists.1 hn
          rw [List.range_succ, List.filterMap_append, List.length_append, ih (fun i hi => hs i (by omega))]
          simp [hx]
      omega
    · rw [h1, List.take_of_length_le]
      exact le_trans (List.length_filterMap_le _ _) (by simp)

theorem range_take_full (w : Nat) (hw : 0 < w) (q : Sequence K) :
    (List.range ((q.length - 1) / w)).filterMap (window w q) = (fullWindows w q).take ((q.length - 1) / w) := by
  unfold fullWindows
  rw [filterMap_range_take]
  · exact Nat.div_le_div_right (by omega)
  · intro i hi; exact window_some w q i hw hi

theorem starts_length (qs : List (Sequence K)) : ∀ s, (starts s qs).length = qs.length := by
  induction qs with
  | nil => intro s; rfl
  | cons q qs ih => intro s; simp [starts, ih]

theorem rows_prefix {α : Type} (pre q post : List α) (s : Nat) (h : pre.length = s) : rows (pre ++ q ++ post) s (s + q.length) = q := by
  unfold rows
  rw [List.append_assoc, ← h, List.take_length_add_append]
  simp

theorem convertLoop_eq (w : Nat) (hw : 0 < w) (ds : Arrays K) (all : Sequence K) (hi : ds.input = all.map Prod.fst) (ht : ds.target = all.map Prod.snd) (e : Nat) :
    ∀ (qs : List (Sequence K)) (last : Sequence K) (pre : Sequence K) (s : Nat), all = pre ++ (qs ++ [last]).flatten → pre.length = s →
    convertLoop ds w (starts s (qs ++ [last]) ++ [e]) =
      .ok ((qs.flatMap (fun q => (fullWindows w q).take ((q.length - 1) / w))) ++
        ((List.range (((rows all (s + qs.flatten.length) e).length - 1) / w)).filterMap (window w (rows all (s + qs.flatten.length) e)))) := by
  intro qs
  induction qs with
  | nil =>
    intro last pre s _ _
    simp only [List.nil_append, starts, List.cons_append, List.flatMap_nil, List.flatten_nil, List.length_nil, Nat.add_zero]
    rw [convertLoop, hi, ht, rows_map, rows_map, cut_eq w hw]
    simp [convertLoop]
  | cons q qs ih =>
    intro last pre s hall hpre
    have hnext : ∀ x : Nat, starts x (qs ++ [last]) = x :: (starts x (qs ++ [last])).tail := by
      intro x; cases qs <;> rfl
    rw [List.cons_append, starts, hnext, List.cons_append, List.cons_append, convertLoop]
    have hq : rows all s (s + q.length) = q := by
      rw [hall, List.cons_append, List.flatten_cons, ← List.append_assoc]
      exact rows_prefix pre q _ s hpre
    rw [hi, ht, rows_map, rows_map, hq, cut_eq w hw]
    dsimp only
    have := ih last (pre ++ q) (s + q.length) (by rw [hall]; simp) (by simp [hpre])
    rw [hnext, List.cons_append] at this
    rw [this]
    dsimp only
    rw [range_take_full w hw q, List.flatMap_cons, List.append_assoc, List.flatten_cons, List.length_append]
    congr 5 <;> rw [← Nat.add_assoc]

theorem length_le_flatten (qs : List (Sequence K)) (h : ∀ q ∈ qs, q ≠ []) : qs.length ≤ qs.flatten.length := by
  induction qs with
  | nil => simp
  | cons q qs ih =>
    have h1 := ih (fun x hx => h x (by simp [hx]))
    have h2 : 0 < q.length := List.length_pos_iff.2 (h q (by simp))
    rw [List.flatten_cons, List.length_append, List.length_cons]
    omega

end Verif.Windows

namespace Verif.Props

open Verif.Windows Verif.Windows.Spec
open Verif.DataSet (Err)

variable {K : Type}

/-- C50: from a dataset of non-empty sequences the conversion cuts, for every sequence but the last, all
non-overlapping full windows in order, except that the last window is missing when the length is a multiple
of the window size; it produces nothing at all for the last sequence. -/
theorem C50_windows_partial (w : Nat) (hw : 0 < w) (qs : List (Sequence K)) (last : Sequence K) (hne : ∀ q ∈ qs, q ≠ []) :
    convert (arrays (qs ++ [last])) w = .ok (qs.flatMap (fun q => (fullWindows w q).take ((q.length - 1) / w))) := by
  have := convertLoop_eq w hw (arrays (qs ++ [last])) (qs ++ [last]).flatten rfl rfl (qs ++ [last]).length qs last [] 0 (by simp) rfl
  unfold convert
  have hl : (arrays (qs ++ [last])).seqIndex.length = (qs ++ [last]).length := starts_length _ _
  rw [hl]
  have hs : (arrays (qs ++ [last])).seqIndex = starts 0 (qs ++ [last]) := rfl
  rw [hs, this]
  have hrows : (rows (qs ++ [last]).flatten (0 + qs.flatten.length) (qs ++ [last]).length).length ≤ 1 := by
    unfold rows
    rw [List.length_drop, List.length_take]
    have := length_le_flatten qs hne
    simp only [List.length_append, List.length_singleton]
    omega
  have hz : ((rows (qs ++ [last]).flatten (0 + qs.flatten.length) (qs ++ [last]).length).length - 1) / w = 0 := by
    rw [show (rows (qs ++ [last]).flatten (0 + qs.flatten.length) (qs ++ [last]).length).length - 1 = 0 by omega, Nat.zero_div]
  rw [hz]
  simp

/-- C50: each sequence whose length is not a multiple of the window size is fully covered (when it is
not the last one). -/
theorem C50_covered (w : Nat) (hw : 0 < w) (qs : List (Sequence K)) (last : Sequence K) (hne : ∀ q ∈ qs, q ≠ []) (hmod : ∀ q ∈ qs, q.length % w ≠ 0) :
    convert (arrays (qs ++ [last])) w = .ok (qs.flatMap (fullWindows w)) := by
  rw [C50_windows_partial w hw qs last hne]
  congr 1
  unfold List.flatMap
  congr 1
  apply List.map_congr_left
  intro q hq
  apply List.take_of_length_le
  unfold fullWindows
  refine le_trans (List.length_filterMap_le _ _) ?_
  rw [List.length_range]
  have hm := hmod q hq
  have hd := Nat.div_add_mod q.length w
  have hlt := Nat.mod_lt q.length hw
  rw [Nat.le_div_iff_mul_le hw]
  have : q.length / w * w = w * (q.length / w) := Nat.mul_comm _ _
  omega

/-- C50: a window size of zero raises `ValueError`. -/
theorem C50_zero (qs : List (Sequence K)) (q : Sequence K) : convert (arrays (q :: qs)) 0 = .error .valueError := by
  unfold convert arrays
  simp only [starts]
  cases qs <;> simp [starts, convertLoop, cut]

/-- C50: the property fails: a dataset with one sequence of any length yields no window. -/
theorem C50_negation_single (w : Nat) (hw : 0 < w) (q : Sequence K) : convert (arrays [q]) w = .ok [] := by
  have := C50_windows_partial w hw [] q (by simp)
  simpa using this

/-- C50: and of two sequences of length four only the first half of the first one is kept. -/
theorem C50_negation_multiple :
    convert (arrays [[([1], [10]), ([2], [20]), ([3], [30]), ([4], [40])], [([5], [50]), ([6], [60]), ([7], [70]), ([8], [80])]]) 2 =
      .ok [([1, 2], [20])] := by decide +kernel

example : fullWindows 2 [([1], [10]), ([2], [20]), ([3], [30]), ([4], [40])] = [([1, 2], [20]), ([3, 4], [40])] := by decide +kernel
example : convert (arrays [[([1], [10]), ([2], [20]), ([3], [30])], [([4], [40]), ([5], [50]), ([6], [60]), ([7], [70]), ([8], [80])], [([9], [90])]]) 2 =
    .ok [([1, 2], [20]), ([4, 5], [50]), ([6, 7], [70])] := by decide +kernel

end Verif.Props
