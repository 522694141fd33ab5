import Verif.Model.Multiline
import Mathlib.Algebra.Order.Archimedean.Basic
import Mathlib.Tactic.Linarith
import Mathlib.Tactic.Ring
import Mathlib.Algebra.Order.Field.Rat
import Mathlib.Data.List.GetD
/-!
C190: plots with several lines.
-/
namespace Verif.Multiline
open Verif.Py

variable {K : Type}

/-- the points of line number `k` -/
def series (p : Plot K) (k : Nat) : List (K × K) :=
  match p.lines[k]? with
  | none => []
  | some l => (p.obj l.xs).zip (p.obj l.ys)

/-- the lists of the lines exist, belong to one line each, and have the same length for both coordinates -/
structure Own (p : Plot K) : Prop where
  bound : ∀ (k : Nat) (l : Line K), p.lines[k]? = some l → l.xs < p.heap.length ∧ l.ys < p.heap.length
  same : ∀ (k : Nat) (l : Line K), p.lines[k]? = some l → (p.obj l.xs).length = (p.obj l.ys).length
  apart : ∀ (k k' : Nat) (l l' : Line K), p.lines[k]? = some l → p.lines[k']? = some l' → (k ≠ k' → l.xs ≠ l'.xs ∧ l.ys ≠ l'.ys) ∧ l.xs ≠ l'.ys

theorem obj_append (p : Plot K) (h : List (List K)) (i : Nat) (hi : i < p.heap.length) : (p.heap ++ h).getD i [] = p.obj i := by
  unfold Plot.obj
  rw [List.getD_append _ _ _ _ hi]

theorem newLine_own (p : Plot K) (h : Own p) : Own (newLine p) ∧ ∀ k, series (newLine p) k = series p k := by
  have hget : ∀ (k : Nat) (l : Line K), (newLine p).lines[k]? = some l → p.lines[k]? = some l ∨ (k = p.lines.length ∧ l.xs = p.heap.length ∧ l.ys = p.heap.length + 1) := by
    intro k l hl
    unfold newLine at hl
    rw [List.getElem?_append] at hl
    split at hl
    · exact Or.inl hl
    · rename_i hk
      right
      cases hkk : k - p.lines.length with
      | zero =>
        rw [hkk] at hl
        simp at hl
        subst hl
        exact ⟨by omega, rfl, rfl⟩
      | succ n => rw [hkk] at hl; simp at hl
  have hobj : ∀ i, i < p.heap.length → (newLine p).obj i = p.obj i := fun i hi => obj_append p _ i hi
  have hnew : (newLine p).obj p.heap.length = [] ∧ (newLine p).obj (p.heap.length + 1) = [] := by
    unfold newLine Plot.obj
    constructor <;> simp [List.getD_eq_getElem?_getD]
  have hlen : (newLine p).heap.length = p.heap.length + 2 := by simp [newLine]
  refine ⟨⟨?_, ?_, ?_⟩, ?_⟩
  · intro k l hl
    rcases hget k l hl with h1 | ⟨-, h1, h2⟩
    · have := h.bound k l h1; omega
    · omega
  · intro k l hl
    rcases hget k l hl with h1 | ⟨-, h1, h2⟩
    · obtain ⟨b1, b2⟩ := h.bound k l h1
      rw [hobj _ b1, hobj _ b2]; exact h.same k l h1
    · rw [h1, h2, hnew.1, hnew.2]
  · intro k k' l l' hl hl'
    rcases hget k l hl with h1 | ⟨e1, h1, h2⟩ <;> rcases hget k' l' hl' with h3 | ⟨e3, h3, h4⟩
    · exact h.apart k k' l l' h1 h3
    · have := h.bound k l h1
      exact ⟨fun _ => ⟨by omega, by omega⟩, by omega⟩
    · have := h.bound k' l' h3
      exact ⟨fun _ => ⟨by omega, by omega⟩, by omega⟩
    · exact ⟨fun hk => absurd (e1.trans e3.symm) hk, by omega⟩
  · intro k
    unfold series
    cases hl : (newLine p).lines[k]? with
    | none =>
      have : p.lines[k]? = none := by
        rw [List.getElem?_eq_none_iff] at hl ⊢
        unfold newLine at hl
        simp at hl
        omega
      rw [this]
    | some l =>
      rcases hget k l hl with h1 | ⟨e1, h1, h2⟩
      · rw [h1]
        obtain ⟨b1, b2⟩ := h.bound k l h1
        simp only [hobj _ b1, hobj _ b2]
      · have : p.lines[k]? = none := by rw [List.getElem?_eq_none_iff]; omega
        rw [this]
        simp only [h1, h2, hnew.1, hnew.2, List.zip_nil_left]

theorem newLines_own (n : Nat) : ∀ (p : Plot K), Own p → Own (newLines n p) ∧ ∀ k, series (newLines n p) k = series p k := by
  induction n with
  | zero => exact fun p h => ⟨h, fun _ => rfl⟩
  | succ n ih =>
    intro p h
    obtain ⟨h1, h2⟩ := newLine_own p h
    obtain ⟨h3, h4⟩ := ih _ h1
    exact ⟨h3, fun k => (h4 k).trans (h2 k)⟩

theorem newLines_frame (n : Nat) : ∀ (p : Plot K), (newLines n p).lines.length = p.lines.length + n ∧ (newLines n p).offset = p.offset ∧ (newLines n p).default = p.default ∧
    (newLines n p).current = p.current ∧ (newLines n p).replot = p.replot ∧ (newLines n p).autoscale = p.autoscale ∧ (newLines n p).xr = p.xr ∧ (newLines n p).yr = p.yr := by
  induction n with
  | zero => exact fun p => ⟨rfl, rfl, rfl, rfl, rfl, rfl, rfl, rfl⟩
  | succ n ih =>
    intro p
    obtain ⟨h1, h2⟩ := ih (newLine p)
    refine ⟨?_, h2⟩
    rw [newLines, h1]
    simp [newLine]; omega

theorem check_own (p : Plot K) (id : Int) (h : Own p) : Own (check p id) ∧ ∀ k, series (check p id) k = series p k := by
  unfold check
  split
  · exact newLines_own _ p h
  · exact ⟨h, fun _ => rfl⟩

theorem check_frame (p : Plot K) (id : Int) : ((check p id).lines.length : Int) = max (p.lines.length : Int) (id + 1) ∧ (check p id).offset = p.offset ∧ (check p id).default = p.default ∧
    (check p id).current = p.current ∧ (check p id).replot = p.replot ∧ (check p id).autoscale = p.autoscale ∧ (check p id).xr = p.xr ∧ (check p id).yr = p.yr := by
  unfold check
  split
  · obtain ⟨h1, h2⟩ := newLines_frame (id + 1 - p.lines.length).toNat p
    refine ⟨?_, h2⟩
    rw [h1]; omega
  · exact ⟨by omega, rfl, rfl, rfl, rfl, rfl, rfl, rfl⟩

/-- what a single point changes -/
theorem add_own (p : Plot K) (h : Own p) (id0 : Int) (x y : K) (hid : 0 ≤ id0 + p.offset) :
    Own (add p id0 x y).1 ∧ (add p id0 x y).2 = none ∧ (add p id0 x y).1.offset = p.offset ∧
    ((add p id0 x y).1.lines.length : Int) = max (p.lines.length : Int) (id0 + p.offset + 1) ∧
    ∀ k : Nat, series (add p id0 x y).1 k = if (k : Int) = id0 + p.offset then series p k ++ [(x, y)] else series p k := by
  obtain ⟨c1, c2⟩ := check_own p (id0 + p.offset) h
  obtain ⟨c3, c4, -⟩ := check_frame p (id0 + p.offset)
  obtain ⟨j, hj⟩ := Int.eq_ofNat_of_zero_le hid
  have hlt : j < (check p (id0 + p.offset)).lines.length := by omega
  have hnorm : normIdx (check p (id0 + p.offset)).lines.length (id0 + p.offset) = some j := by
    unfold normIdx
    rw [if_pos hid, if_pos (by omega)]
    congr 1; omega
  have hget : getIdx (check p (id0 + p.offset)).lines (id0 + p.offset) = some ((check p (id0 + p.offset)).lines[j]) := by
    unfold getIdx
    rw [hnorm]
    simp [List.getElem?_eq_getElem hlt]
  unfold add
  simp only [hget]
  generalize hq : check p (id0 + p.offset) = q at *
  have hl0 : q.lines[j]? = some q.lines[j] := List.getElem?_eq_getElem hlt
  generalize hl : q.lines[j] = l at *
  obtain ⟨b1, b2⟩ := c1.bound j l hl0
  have hne : l.xs ≠ l.ys := (c1.apart j j l l hl0 hl0).2
  have hobj : ∀ i, (append (append q.heap l.xs x) l.ys y).getD i [] = if i = l.ys then q.obj i ++ [y] else if i = l.xs then q.obj i ++ [x] else q.obj i := by
    intro i
    unfold append
    simp only [List.getD_eq_getElem?_getD, List.getElem?_set, Plot.obj]
    by_cases e1 : i = l.ys
    · subst e1
      rw [if_pos rfl, if_pos rfl, if_neg hne]
      simp [b2]
    · rw [if_neg (Ne.symm e1), if_neg e1]
      by_cases e2 : i = l.xs
      · subst e2
        simp [b1]
      · rw [if_neg (Ne.symm e2), if_neg e2]
  have hheap : (append (append q.heap l.xs x) l.ys y).length = q.heap.length := by simp [append]
  refine ⟨⟨?_, ?_, ?_⟩, trivial, c4, c3, ?_⟩
  · intro k l' hl'
    have := c1.bound k l' hl'
    show l'.xs < (append _ _ _).length ∧ _ < (append _ _ _).length
    omega
  · intro k l' hl'
    show ((append (append q.heap l.xs x) l.ys y).getD l'.xs []).length = ((append (append q.heap l.xs x) l.ys y).getD l'.ys []).length
    rw [hobj, hobj]
    have hs := c1.same k l' hl'
    by_cases e : k = j
    · subst e
      have : l' = l := Option.some.inj (hl'.symm.trans hl0)
      subst this
      rw [if_neg hne, if_pos rfl, if_pos rfl]
      simp [hs]
    · obtain ⟨a1, a2⟩ := c1.apart k j l' l hl' hl0
      obtain ⟨-, a4⟩ := c1.apart j k l l' hl0 hl'
      rw [if_neg a2, if_neg (a1 e).1, if_neg (a1 e).2, if_neg (Ne.symm a4)]
      exact hs
  · exact c1.apart
  · intro k
    rw [← c2 k]
    unfold series
    show (match q.lines[k]? with | none => [] | some l' => ((append (append q.heap l.xs x) l.ys y).getD l'.xs []).zip ((append (append q.heap l.xs x) l.ys y).getD l'.ys [])) = _
    by_cases e : k = j
    · subst e
      rw [if_pos hj.symm, hl0]
      simp only
      rw [hobj, hobj, if_neg hne, if_pos rfl, if_pos rfl, List.zip_append (c1.same k l hl0)]
      rfl
    · rw [if_neg (by omega)]
      cases hl' : q.lines[k]? with
      | none => rfl
      | some l' =>
        obtain ⟨a1, a2⟩ := c1.apart k j l' l hl' hl0
        obtain ⟨-, a4⟩ := c1.apart j k l l' hl0 hl'
        simp only
        rw [hobj, hobj, if_neg a2, if_neg (a1 e).1, if_neg (a1 e).2, if_neg (Ne.symm a4)]

theorem adds_own (id0 : Int) : ∀ (xs ys : List K) (p : Plot K), Own p → 0 ≤ id0 + p.offset → xs.length = ys.length →
    Own (adds p id0 xs ys).1 ∧ (adds p id0 xs ys).2 = none ∧ (adds p id0 xs ys).1.offset = p.offset ∧
    ((adds p id0 xs ys).1.lines.length : Int) = (if xs = [] then (p.lines.length : Int) else max (p.lines.length : Int) (id0 + p.offset + 1)) ∧
    ∀ k : Nat, series (adds p id0 xs ys).1 k = if (k : Int) = id0 + p.offset then series p k ++ xs.zip ys else series p k
  | [], ys, p, h, hid, hlen => by
    refine ⟨⟨h.bound, h.same, h.apart⟩, rfl, rfl, ?_, ?_⟩
    · simp [adds]
    · intro k
      have : series (adds p id0 [] ys).1 k = series p k := rfl
      rw [this]; simp
  | x :: xs, [], p, h, hid, hlen => by simp at hlen
  | x :: xs, y :: ys, p, h, hid, hlen => by
    obtain ⟨h1, h2, h3, h4, h5⟩ := add_own p h id0 x y hid
    have hs : add p id0 x y = ((add p id0 x y).1, none) := by rw [← h2]
    have ha : adds p id0 (x :: xs) (y :: ys) = adds (add p id0 x y).1 id0 xs ys := by
      conv_lhs => rw [adds, hs]
    obtain ⟨g1, g2, g3, g4, g5⟩ := adds_own id0 xs ys (add p id0 x y).1 h1 (by rw [h3]; exact hid) (by simpa using hlen)
    rw [ha]
    refine ⟨g1, g2, g3.trans h3, ?_, ?_⟩
    · rw [g4, h3, h4]
      simp only [List.cons_ne_nil, if_false]
      split <;> omega
    · intro k
      rw [g5, h5, h3]
      split
      · simp
      · rfl

theorem set_own (p : Plot K) (h : Own p) (id0 : Int) (xs ys : List K) (hid : 0 ≤ id0 + p.offset) (hlen : xs.length = ys.length) :
    Own (setData p id0 (.new xs) (.new ys)).1 ∧ (setData p id0 (.new xs) (.new ys)).2 = none ∧ (setData p id0 (.new xs) (.new ys)).1.offset = p.offset ∧
    ((setData p id0 (.new xs) (.new ys)).1.lines.length : Int) = max (p.lines.length : Int) (id0 + p.offset + 1) ∧
    ∀ k : Nat, series (setData p id0 (.new xs) (.new ys)).1 k = if (k : Int) = id0 + p.offset then xs.zip ys else series p k := by
  obtain ⟨c1, c2⟩ := check_own p (id0 + p.offset) h
  obtain ⟨c3, c4, -⟩ := check_frame p (id0 + p.offset)
  obtain ⟨j, hj⟩ := Int.eq_ofNat_of_zero_le hid
  have hlt : j < (check p (id0 + p.offset)).lines.length := by omega
  have hnorm : normIdx (check p (id0 + p.offset)).lines.length (id0 + p.offset) = some j := by
    unfold normIdx
    rw [if_pos hid, if_pos (by omega)]
    congr 1; omega
  unfold setData
  simp only [hnorm, alloc]
  generalize hq : check p (id0 + p.offset) = q at *
  have hobj : ∀ i, i < q.heap.length → (q.heap ++ [xs] ++ [ys]).getD i [] = q.obj i := by
    intro i hi
    rw [List.append_assoc]
    exact obj_append q _ i hi
  have hx : (q.heap ++ [xs] ++ [ys]).getD q.heap.length [] = xs := by simp [List.getD_eq_getElem?_getD]
  have hy : (q.heap ++ [xs] ++ [ys]).getD (q.heap ++ [xs]).length [] = ys := by simp [List.getD_eq_getElem?_getD]
  have hget : ∀ (k : Nat) (l : Line K), (q.lines.modify j fun l => { l with xs := q.heap.length, ys := (q.heap ++ [xs]).length })[k]? = some l →
      (k ≠ j ∧ q.lines[k]? = some l) ∨ (k = j ∧ l.xs = q.heap.length ∧ l.ys = (q.heap ++ [xs]).length) := by
    intro k l hl
    rw [List.getElem?_modify] at hl
    by_cases e : j = k
    · right
      subst e
      rw [List.getElem?_eq_getElem hlt] at hl
      simp only [if_true, Option.map_eq_map, Option.map_some] at hl
      have := Option.some.inj hl
      subst this
      exact ⟨rfl, rfl, rfl⟩
    · left
      simp only [if_neg e] at hl
      refine ⟨Ne.symm e, ?_⟩
      cases h0 : q.lines[k]? with
      | none => rw [h0] at hl; simp at hl
      | some l0 => rw [h0] at hl; simpa using hl
  have hl1 : (q.heap ++ [xs]).length = q.heap.length + 1 := by simp
  refine ⟨⟨?_, ?_, ?_⟩, trivial, c4, ?_, ?_⟩
  · intro k l hl
    show l.xs < (q.heap ++ [xs] ++ [ys]).length ∧ l.ys < (q.heap ++ [xs] ++ [ys]).length
    rcases hget k l hl with ⟨-, h1⟩ | ⟨-, h1, h2⟩
    · have := c1.bound k l h1; simp; omega
    · rw [h1, h2]; simp
  · intro k l hl
    show ((q.heap ++ [xs] ++ [ys]).getD l.xs []).length = ((q.heap ++ [xs] ++ [ys]).getD l.ys []).length
    rcases hget k l hl with ⟨-, h1⟩ | ⟨-, h1, h2⟩
    · obtain ⟨b1, b2⟩ := c1.bound k l h1
      rw [hobj _ b1, hobj _ b2]; exact c1.same k l h1
    · rw [h1, h2, hx, hy]; exact hlen
  · intro k k' l l' hl hl'
    rcases hget k l hl with ⟨e1, h1⟩ | ⟨e1, h1, h2⟩ <;> rcases hget k' l' hl' with ⟨e3, h3⟩ | ⟨e3, h3, h4⟩
    · exact c1.apart k k' l l' h1 h3
    · have := c1.bound k l h1
      exact ⟨fun _ => ⟨by omega, by omega⟩, by omega⟩
    · have := c1.bound k' l' h3
      exact ⟨fun _ => ⟨by omega, by omega⟩, by omega⟩
    · exact ⟨fun hk => absurd (e1.trans e3.symm) hk, by omega⟩
  · show ((q.lines.modify j _).length : Int) = _
    rw [List.length_modify]; exact c3
  · intro k
    rw [← c2 k]
    unfold series
    show (match (q.lines.modify j fun l => { l with xs := q.heap.length, ys := (q.heap ++ [xs]).length })[k]? with
      | none => [] | some l' => ((q.heap ++ [xs] ++ [ys]).getD l'.xs []).zip ((q.heap ++ [xs] ++ [ys]).getD l'.ys [])) = _
    cases hl : (q.lines.modify j fun l => { l with xs := q.heap.length, ys := (q.heap ++ [xs]).length })[k]? with
    | none =>
      have hk : q.lines.length ≤ k := by
        rw [List.getElem?_eq_none_iff, List.length_modify] at hl; exact hl
      rw [if_neg (by omega), List.getElem?_eq_none hk]
    | some l =>
      rcases hget k l hl with ⟨e1, h1⟩ | ⟨e1, h1, h2⟩
      · rw [if_neg (by omega), h1]
        obtain ⟨b1, b2⟩ := c1.bound k l h1
        simp only [hobj _ b1, hobj _ b2]
      · rw [if_pos (by omega)]
        simp only [h1, h2, hx, hy]

/-- the lines of a plot differ only in style -/
theorem styled_own (p p' : Plot K) (h : Own p) (hh : p'.heap = p.heap) (hl : p'.lines.map (fun l => (l.xs, l.ys)) = p.lines.map (fun l => (l.xs, l.ys))) :
    Own p' ∧ ∀ k, series p' k = series p k := by
  have hget : ∀ (k : Nat) (l : Line K), p'.lines[k]? = some l → ∃ l0, p.lines[k]? = some l0 ∧ l0.xs = l.xs ∧ l0.ys = l.ys := by
    intro k l hk
    have := congrArg (fun m => m[k]?) hl
    simp only [List.getElem?_map, hk, Option.map_some] at this
    cases h0 : p.lines[k]? with
    | none => rw [h0] at this; simp at this
    | some l0 =>
      rw [h0] at this
      simp at this
      exact ⟨l0, rfl, this.1.symm, this.2.symm⟩
  have hobj : ∀ i, p'.obj i = p.obj i := fun i => by unfold Plot.obj; rw [hh]
  refine ⟨⟨?_, ?_, ?_⟩, ?_⟩
  · intro k l hk
    obtain ⟨l0, h0, e1, e2⟩ := hget k l hk
    rw [hh, ← e1, ← e2]; exact h.bound k l0 h0
  · intro k l hk
    obtain ⟨l0, h0, e1, e2⟩ := hget k l hk
    rw [hobj, hobj, ← e1, ← e2]; exact h.same k l0 h0
  · intro k k' l l' hk hk'
    obtain ⟨l0, h0, e1, e2⟩ := hget k l hk
    obtain ⟨l1, h1, e3, e4⟩ := hget k' l' hk'
    rw [← e1, ← e2, ← e3, ← e4]; exact h.apart k k' l0 l1 h0 h1
  · intro k
    unfold series
    cases hk : p'.lines[k]? with
    | none =>
      have : p.lines[k]? = none := by
        have hle := congrArg List.length hl
        simp at hle
        rw [List.getElem?_eq_none_iff] at hk ⊢
        omega
      rw [this]
    | some l =>
      obtain ⟨l0, h0, e1, e2⟩ := hget k l hk
      rw [h0]
      simp only [hobj, e1, e2]

theorem map_modify_style (ls : List (Line K)) (k : Nat) (f : Line K → Line K) (hf : ∀ l, (f l).xs = l.xs ∧ (f l).ys = l.ys) :
    (ls.modify k f).map (fun l => (l.xs, l.ys)) = ls.map (fun l => (l.xs, l.ys)) := by
  apply List.ext_getElem?
  intro i
  simp only [List.getElem?_map, List.getElem?_modify]
  cases ls[i]? with
  | none => rfl
  | some l =>
    simp only [Option.map_some, Option.map_eq_map]
    split
    · rw [(hf l).1, (hf l).2]
    · rfl

theorem styleLine_own (p : Plot K) (i : Int) (kw : Sty) (h : Own p) :
    (Own (styleLine p i kw).1 ∧ ∀ k, series (styleLine p i kw).1 k = series p k) ∧ (styleLine p i kw).1.offset = p.offset ∧ (styleLine p i kw).1.lines.length = p.lines.length := by
  unfold styleLine
  cases normIdx p.lines.length i with
  | none => exact ⟨⟨h, fun _ => rfl⟩, rfl, rfl⟩
  | some k =>
    exact ⟨styled_own p _ h rfl (map_modify_style p.lines k (fun l => { l with style := merge l.style kw }) fun l => ⟨rfl, rfl⟩), rfl, List.length_modify ..⟩

theorem styleMany_own (kw : Sty) : ∀ (is : List Int) (p : Plot K), Own p →
    (Own (styleMany p kw is).1 ∧ ∀ k, series (styleMany p kw is).1 k = series p k) ∧ (styleMany p kw is).1.offset = p.offset ∧ (styleMany p kw is).1.lines.length = p.lines.length
  | [], p, h => ⟨⟨h, fun _ => rfl⟩, rfl, rfl⟩
  | i :: is, p, h => by
    obtain ⟨⟨h1, h2⟩, h3, h4⟩ := styleLine_own p (i + p.offset) kw h
    unfold styleMany
    generalize styleLine p (i + p.offset) kw = q at *
    obtain ⟨q, e⟩ := q
    cases e with
    | some e => exact ⟨⟨h1, h2⟩, h3, h4⟩
    | none =>
      obtain ⟨⟨g1, g2⟩, g3, g4⟩ := styleMany_own kw is q h1
      exact ⟨⟨g1, fun k => (g2 k).trans (h2 k)⟩, g3.trans h3, g4.trans h4⟩

theorem one_own (p : Plot K) (id : Int) (kw : Sty) (h : Own p) :
    (Own (applyStyle.one kw p id).1 ∧ ∀ k, series (applyStyle.one kw p id).1 k = series p k) ∧ (applyStyle.one kw p id).1.offset = p.offset ∧
      p.lines.length ≤ (applyStyle.one kw p id).1.lines.length := by
  unfold applyStyle.one
  split
  · obtain ⟨c1, c2⟩ := check_own p (id + p.offset) h
    obtain ⟨c3, c4, -⟩ := check_frame p (id + p.offset)
    obtain ⟨⟨h1, h2⟩, h3, h4⟩ := styleLine_own (check p (id + p.offset)) (id + p.offset) kw c1
    exact ⟨⟨h1, fun k => (h2 k).trans (c2 k)⟩, h3.trans c4, by omega⟩
  · refine ⟨styled_own p _ h rfl ?_, rfl, ?_⟩
    · simp
    · simp

theorem style_own (p : Plot K) (w : Which) (kw : Sty) (h : Own p) :
    (Own (setLineStyle p w kw).1 ∧ ∀ k, series (setLineStyle p w kw).1 k = series p k) ∧ (setLineStyle p w kw).1.offset = p.offset ∧
      p.lines.length ≤ (setLineStyle p w kw).1.lines.length := by
  have key : (Own (applyStyle p kw w).1 ∧ ∀ k, series (applyStyle p kw w).1 k = series p k) ∧ (applyStyle p kw w).1.offset = p.offset ∧
      p.lines.length ≤ (applyStyle p kw w).1.lines.length := by
    cases w with
    | last =>
      unfold applyStyle
      cases p.current with
      | none => exact ⟨⟨h, fun _ => rfl⟩, rfl, le_refl _⟩
      | some id => exact one_own p id kw h
    | one id => exact one_own p id kw h
    | many ids =>
      cases ids with
      | nil => exact ⟨⟨h, fun _ => rfl⟩, rfl, le_refl _⟩
      | cons i is =>
        unfold applyStyle
        obtain ⟨c1, c2⟩ := check_own p (is.foldl max i + p.offset) h
        obtain ⟨c3, c4, -⟩ := check_frame p (is.foldl max i + p.offset)
        obtain ⟨⟨h1, h2⟩, h3, h4⟩ := styleMany_own kw (i :: is) _ c1
        refine ⟨⟨h1, fun k => (h2 k).trans (c2 k)⟩, h3.trans c4, ?_⟩
        show _ ≤ (styleMany (check p (is.foldl max i + p.offset)) kw (i :: is)).1.lines.length
        omega
  unfold setLineStyle
  generalize applyStyle p kw w = q at *
  obtain ⟨q, e⟩ := q
  cases e with
  | some e => exact key
  | none =>
    simp only
    split
    · exact key
    · exact ⟨⟨⟨key.1.1.bound, key.1.1.same, key.1.1.apart⟩, key.1.2⟩, key.2⟩

section
variable [Field K] [LinearOrder K]

theorem updateLines_map (fuel : Nat) (p : Plot K) : ∀ (ls : List (Line K)) (r), (updateLines fuel p ls r).1.map (fun l => (l.xs, l.ys)) = ls.map (fun l => (l.xs, l.ys))
  | [], r => rfl
  | l :: ls, r => by
    unfold updateLines
    simp only
    split
    · rfl
    · simp [updateLines_map fuel p ls]

theorem update_own (fuel : Nat) (p : Plot K) (h : Own p) :
    (Own (update fuel p).1 ∧ ∀ k, series (update fuel p).1 k = series p k) ∧ (update fuel p).1.offset = p.offset ∧ (update fuel p).1.lines.length = p.lines.length := by
  have hm := updateLines_map fuel p p.lines (p.xr, p.yr)
  have hlen : (updateLines fuel p p.lines (p.xr, p.yr)).1.length = p.lines.length := by
    have := congrArg List.length hm; simpa using this
  unfold update
  split
  · simp only
    split
    · exact ⟨styled_own p _ h rfl hm, rfl, hlen⟩
    · exact ⟨styled_own p _ h rfl hm, rfl, hlen⟩
  · exact ⟨⟨h, fun _ => rfl⟩, rfl, rfl⟩

/-- The points line `k` should have after some calls, given the ones it has and the current offset. -/
def expected (k : Int) : Int → List (K × K) → List (Op K) → List (K × K)
  | _, acc, [] => acc
  | _, acc, .offset o :: os => expected k o acc os
  | off, acc, .add id x y :: os => expected k off (if k = id + off then acc ++ [(x, y)] else acc) os
  | off, acc, .adds id xs ys :: os => expected k off (if k = id + off then acc ++ xs.zip ys else acc) os
  | off, acc, .set id (.new xs) (.new ys) :: os => expected k off (if k = id + off then xs.zip ys else acc) os
  | off, acc, _ :: os => expected k off acc os

/-- numbers of lines are not negative, both coordinates have the same length, and lists are given to one line only -/
def Proper : Int → List (Op K) → Prop
  | _, [] => True
  | _, .offset o :: os => Proper o os
  | off, .add id _ _ :: os => 0 ≤ id + off ∧ Proper off os
  | off, .adds id xs ys :: os => (0 ≤ id + off ∧ xs.length = ys.length) ∧ Proper off os
  | off, .set id (.new xs) (.new ys) :: os => (0 ≤ id + off ∧ xs.length = ys.length) ∧ Proper off os
  | _, .set _ _ _ :: _ => False
  | off, _ :: os => Proper off os

theorem run_series (fuel : Nat) : ∀ (ops : List (Op K)) (p : Plot K), Own p → Proper p.offset ops →
    Own (run fuel p ops) ∧ ∀ k : Nat, series (run fuel p ops) k = expected k p.offset (series p k) ops
  | [], p, h, _ => ⟨h, fun _ => rfl⟩
  | o :: os, p, h, hp => by
    cases o with
    | offset o => exact run_series fuel os { p with offset := o } ⟨h.bound, h.same, h.apart⟩ hp
    | add id x y =>
      obtain ⟨h1, -, h3, -, h5⟩ := add_own p h id x y hp.1
      obtain ⟨g1, g2⟩ := run_series fuel os (add p id x y).1 h1 (by rw [h3]; exact hp.2)
      refine ⟨g1, fun k => (g2 k).trans ?_⟩
      rw [h3, h5]; rfl
    | adds id xs ys =>
      obtain ⟨h1, -, h3, -, h5⟩ := adds_own id xs ys p h hp.1.1 hp.1.2
      obtain ⟨g1, g2⟩ := run_series fuel os (adds p id xs ys).1 h1 (by rw [h3]; exact hp.2)
      refine ⟨g1, fun k => (g2 k).trans ?_⟩
      rw [h3, h5]; rfl
    | set id x y =>
      cases x with
      | old i => exact absurd hp (by simp [Proper])
      | new xs =>
        cases y with
        | old i => exact absurd hp (by simp [Proper])
        | new ys =>
          obtain ⟨h1, -, h3, -, h5⟩ := set_own p h id xs ys hp.1.1 hp.1.2
          obtain ⟨g1, g2⟩ := run_series fuel os (setData p id (.new xs) (.new ys)).1 h1 (by rw [h3]; exact hp.2)
          refine ⟨g1, fun k => (g2 k).trans ?_⟩
          rw [h3, h5]; rfl
    | style w kw =>
      obtain ⟨⟨h1, h2⟩, h3, -⟩ := style_own p w kw h
      obtain ⟨g1, g2⟩ := run_series fuel os (setLineStyle p w kw).1 h1 (by rw [h3]; exact hp)
      refine ⟨g1, fun k => (g2 k).trans ?_⟩
      rw [h3, h2]; rfl
    | update =>
      obtain ⟨⟨h1, h2⟩, h3, -⟩ := update_own fuel p h
      obtain ⟨g1, g2⟩ := run_series fuel os (update fuel p).1 h1 (by rw [h3]; exact hp)
      refine ⟨g1, fun k => (g2 k).trans ?_⟩
      rw [h3, h2]; rfl

end

theorem init_own (n : Int) (a : K) (xr yr : K × K) : Own (init n a xr yr) ∧ ∀ k, series (init n a xr yr) k = [] := by
  have h0 : Own ({ heap := [], lines := [], default := [], replot := true, current := none, offset := 0, autoscale := a, xr := xr, yr := yr } : Plot K) :=
    ⟨fun k l h => by simp at h, fun k l h => by simp at h, fun k k' l l' h => by simp at h⟩
  obtain ⟨c1, c2⟩ := check_own _ (n - 1) h0
  refine ⟨⟨c1.bound, c1.same, c1.apart⟩, fun k => ?_⟩
  have : series (init n a xr yr) k = series (check ({ heap := [], lines := [], default := [], replot := true, current := none, offset := 0, autoscale := a, xr := xr, yr := yr } : Plot K) (n - 1)) k := rfl
  rw [this, c2]
  simp [series]

/-! ### the drawn lines -/

theorem obj_newLine (p : Plot K) (i : Nat) : (newLine p).obj i = p.obj i := by
  unfold newLine Plot.obj
  simp only [List.getD_eq_getElem?_getD, List.getElem?_append]
  split
  · rfl
  · rename_i h
    rw [List.getElem?_eq_none (by omega : p.heap.length ≤ i)]
    rcases hi : i - p.heap.length with _ | _ | n <;> simp

/-- if no update is needed, all lines show their points -/
def Cur (p : Plot K) : Prop := p.replot = false → ∀ l ∈ p.lines, l.drawn = (p.obj l.xs, p.obj l.ys)

/-- colours belong to numbers -/
def Col (p : Plot K) : Prop := ∀ (k : Nat) (l : Line K), p.lines[k]? = some l → l.color = k % 9

theorem newLine_cur (p : Plot K) (h : Cur p) : Cur (newLine p) := by
  intro hr l hl
  rw [obj_newLine, obj_newLine]
  have hl' : l ∈ p.lines ++ [{ xs := p.heap.length, ys := p.heap.length + 1, color := p.lines.length % 9, style := p.default, drawn := ([], []) }] := hl
  rw [List.mem_append, List.mem_singleton] at hl'
  rcases hl' with h1 | h1
  · exact h hr l h1
  · subst h1
    simp [Plot.obj, List.getD_eq_getElem?_getD]

theorem newLine_col (p : Plot K) (h : Col p) : Col (newLine p) := by
  intro k l hl
  have hl' : (p.lines ++ [{ xs := p.heap.length, ys := p.heap.length + 1, color := p.lines.length % 9, style := p.default, drawn := ([], []) }])[k]? = some l := hl
  rw [List.getElem?_append] at hl'
  split at hl'
  · exact h k l hl'
  · rcases hk : k - p.lines.length with _ | n
    · rw [hk] at hl'
      have := Option.some.inj hl'
      subst this
      have : k = p.lines.length := by omega
      rw [this]
    · rw [hk] at hl'; simp at hl'

theorem newLines_cc (n : Nat) : ∀ (p : Plot K), Cur p → Col p → Cur (newLines n p) ∧ Col (newLines n p) := by
  induction n with
  | zero => exact fun p h h' => ⟨h, h'⟩
  | succ n ih => exact fun p h h' => ih _ (newLine_cur p h) (newLine_col p h')

theorem check_cc (p : Plot K) (id : Int) (h : Cur p) (h' : Col p) : Cur (check p id) ∧ Col (check p id) := by
  unfold check
  split
  · exact newLines_cc _ p h h'
  · exact ⟨h, h'⟩

theorem modify_mem (ls : List (Line K)) (k : Nat) (f : Line K → Line K) (l : Line K) (j : Nat) (hl : (ls.modify k f)[j]? = some l) : ∃ l0, ls[j]? = some l0 ∧ (l = l0 ∨ l = f l0) := by
  rw [List.getElem?_modify] at hl
  cases h0 : ls[j]? with
  | none => rw [h0] at hl; simp at hl
  | some l0 =>
    rw [h0] at hl
    refine ⟨l0, rfl, ?_⟩
    simp only [Option.map_eq_map, Option.map_some, Option.some.injEq] at hl
    split at hl
    · exact Or.inr hl.symm
    · exact Or.inl hl.symm

theorem styleLine_cc (p : Plot K) (i : Int) (kw : Sty) (h : Cur p) (h' : Col p) : Cur (styleLine p i kw).1 ∧ Col (styleLine p i kw).1 := by
  unfold styleLine
  cases normIdx p.lines.length i with
  | none => exact ⟨h, h'⟩
  | some k =>
    constructor
    · intro hr l hl
      obtain ⟨j, hj⟩ := List.mem_iff_getElem?.1 hl
      obtain ⟨l0, h0, e⟩ := modify_mem _ _ _ _ _ hj
      have := h hr l0 (List.mem_of_getElem? h0)
      rcases e with e | e <;> subst e <;> exact this
    · intro j l hj
      obtain ⟨l0, h0, e⟩ := modify_mem _ _ _ _ _ hj
      have := h' j l0 h0
      rcases e with e | e <;> subst e <;> exact this

theorem styleMany_cc (kw : Sty) : ∀ (is : List Int) (p : Plot K), Cur p → Col p → Cur (styleMany p kw is).1 ∧ Col (styleMany p kw is).1
  | [], p, h, h' => ⟨h, h'⟩
  | i :: is, p, h, h' => by
    obtain ⟨h1, h2⟩ := styleLine_cc p (i + p.offset) kw h h'
    unfold styleMany
    generalize styleLine p (i + p.offset) kw = q at *
    obtain ⟨q, e⟩ := q
    cases e with
    | some e => exact ⟨h1, h2⟩
    | none => exact styleMany_cc kw is q h1 h2

theorem one_cc (p : Plot K) (id : Int) (kw : Sty) (h : Cur p) (h' : Col p) : Cur (applyStyle.one kw p id).1 ∧ Col (applyStyle.one kw p id).1 := by
  unfold applyStyle.one
  split
  · obtain ⟨c1, c2⟩ := check_cc p (id + p.offset) h h'
    exact styleLine_cc _ _ kw c1 c2
  · constructor
    · intro hr l hl
      obtain ⟨l0, h0, e⟩ := List.mem_map.1 hl
      subst e
      exact h hr l0 h0
    · intro k l hl
      simp only [List.getElem?_map] at hl
      cases h0 : p.lines[k]? with
      | none => rw [h0] at hl; simp at hl
      | some l0 =>
        rw [h0] at hl
        have := Option.some.inj hl
        subst this
        exact h' k l0 h0

theorem style_cc (p : Plot K) (w : Which) (kw : Sty) (h : Cur p) (h' : Col p) : Cur (setLineStyle p w kw).1 ∧ Col (setLineStyle p w kw).1 := by
  have key : Cur (applyStyle p kw w).1 ∧ Col (applyStyle p kw w).1 := by
    cases w with
    | last =>
      unfold applyStyle
      cases p.current with
      | none => exact ⟨h, h'⟩
      | some id => exact one_cc p id kw h h'
    | one id => exact one_cc p id kw h h'
    | many ids =>
      cases ids with
      | nil => exact ⟨h, h'⟩
      | cons i is =>
        obtain ⟨c1, c2⟩ := check_cc p (is.foldl max i + p.offset) h h'
        exact styleMany_cc kw (i :: is) _ c1 c2
  unfold setLineStyle
  generalize applyStyle p kw w = q at *
  obtain ⟨q, e⟩ := q
  cases e with
  | some e => exact key
  | none =>
    simp only
    split
    · exact key
    · exact key

theorem add_cc (p : Plot K) (id : Int) (x y : K) (h : Cur p) (h' : Col p) : Cur (add p id x y).1 ∧ Col (add p id x y).1 := by
  obtain ⟨c1, c2⟩ := check_cc p (id + p.offset) h h'
  unfold add
  simp only
  split
  · exact ⟨c1, c2⟩
  · exact ⟨fun hr => absurd hr (by simp), c2⟩

theorem adds_cc (id : Int) : ∀ (xs ys : List K) (p : Plot K), Cur p → Col p → Cur (adds p id xs ys).1 ∧ Col (adds p id xs ys).1
  | [], _, _, _, h' => ⟨fun hr => absurd hr (by simp [adds]), h'⟩
  | _ :: _, [], _, h, h' => ⟨h, h'⟩
  | x :: xs, y :: ys, p, h, h' => by
    obtain ⟨h1, h2⟩ := add_cc p id x y h h'
    unfold adds
    generalize add p id x y = q at *
    obtain ⟨q, e⟩ := q
    cases e with
    | some e => exact ⟨h1, h2⟩
    | none => exact adds_cc id xs ys q h1 h2

theorem set_cc (p : Plot K) (id : Int) (x y : Src K) (h : Cur p) (h' : Col p) : Cur (setData p id x y).1 ∧ Col (setData p id x y).1 := by
  obtain ⟨c1, c2⟩ := check_cc p (id + p.offset) h h'
  unfold setData
  simp only
  split
  · exact ⟨c1, c2⟩
  · refine ⟨fun hr => absurd hr (by simp), ?_⟩
    intro k l hl
    obtain ⟨l0, h0, e⟩ := modify_mem _ _ _ _ _ hl
    have := c2 k l0 h0
    rcases e with e | e <;> subst e <;> exact this

section
variable [Field K] [LinearOrder K]

theorem updateLines_drawn (fuel : Nat) (p : Plot K) : ∀ (ls : List (Line K)) (r r'), (updateLines fuel p ls r).2 = .ok r' →
    ∀ l ∈ (updateLines fuel p ls r).1, l.drawn = (p.obj l.xs, p.obj l.ys)
  | [], r, r', _ => by simp [updateLines]
  | l :: ls, r, r', h => by
    unfold updateLines at h ⊢
    simp only at h ⊢
    split at h
    · exact absurd h (by simp)
    · rename_i r1 hr1
      intro l' hl'
      rcases List.mem_cons.1 hl' with e | e
      · subst e; rfl
      · exact updateLines_drawn fuel p ls r1 r' h l' e

theorem updateLines_color (fuel : Nat) (p : Plot K) : ∀ (ls : List (Line K)) (r), (updateLines fuel p ls r).1.map (fun l => l.color) = ls.map (fun l => l.color)
  | [], r => rfl
  | l :: ls, r => by
    unfold updateLines
    simp only
    split
    · rfl
    · simp [updateLines_color fuel p ls]

theorem col_of_map (p p' : Plot K) (h : Col p) (hm : p'.lines.map (fun l => l.color) = p.lines.map (fun l => l.color)) : Col p' := by
  intro k l hl
  have := congrArg (fun m => m[k]?) hm
  simp only [List.getElem?_map, hl, Option.map_some] at this
  cases h0 : p.lines[k]? with
  | none => rw [h0] at this; simp at this
  | some l0 =>
    rw [h0] at this
    simp at this
    rw [this]; exact h k l0 h0

theorem update_cc (fuel : Nat) (p : Plot K) (h : Cur p) (h' : Col p) :
    Cur (update fuel p).1 ∧ Col (update fuel p).1 ∧ ((update fuel p).2 = none → ∀ l ∈ (update fuel p).1.lines, l.drawn = ((update fuel p).1.obj l.xs, (update fuel p).1.obj l.ys)) := by
  have hc := updateLines_color fuel p p.lines (p.xr, p.yr)
  unfold update
  split
  · rename_i hr
    simp only
    split
    · exact ⟨fun hf => absurd (hf.symm.trans hr) (by simp), col_of_map p _ h' hc, fun hn => absurd hn (by simp)⟩
    · rename_i r hq
      have hd := updateLines_drawn fuel p p.lines (p.xr, p.yr) r hq
      exact ⟨fun _ => hd, col_of_map p _ h' hc, fun _ => hd⟩
  · rename_i hr
    exact ⟨h, h', fun _ => h (by simpa using hr)⟩

theorem run_cc (fuel : Nat) : ∀ (ops : List (Op K)) (p : Plot K), Cur p → Col p → Cur (run fuel p ops) ∧ Col (run fuel p ops)
  | [], _, h, h' => ⟨h, h'⟩
  | o :: os, p, h, h' => by
    have key : Cur (step fuel p o).1 ∧ Col (step fuel p o).1 := by
      cases o with
      | offset o => exact ⟨h, h'⟩
      | add id x y => exact add_cc p id x y h h'
      | adds id xs ys => exact adds_cc id xs ys p h h'
      | set id x y => exact set_cc p id x y h h'
      | style w kw => exact style_cc p w kw h h'
      | update => exact ⟨(update_cc fuel p h h').1, (update_cc fuel p h h').2.1⟩
    exact run_cc fuel os _ key.1 key.2

/-! ### the limits of the axes -/

variable [IsStrictOrderedRing K]

theorem expand_ok [Archimedean K] (a lo t : K) (ha : 1 < a) (hi : K) (h : lo < hi) : ∃ N r, hi ≤ r ∧ t ≤ r ∧ ∀ fuel, N ≤ fuel → expand fuel a lo hi t = .ok r := by
  have key : ∀ (n : Nat) (hi : K), lo < hi → t ≤ lo + (hi - lo) * a ^ n → ∃ r, hi ≤ r ∧ t ≤ r ∧ ∀ fuel, n + 1 ≤ fuel → expand fuel a lo hi t = .ok r := by
    intro n
    induction n with
    | zero =>
      intro hi h ht
      have ht' : t ≤ hi := by simpa using ht
      refine ⟨hi, le_refl _, ht', ?_⟩
      intro fuel hf
      obtain ⟨m, rfl⟩ : ∃ m, fuel = m + 1 := ⟨fuel - 1, by omega⟩
      rw [expand, if_neg (not_lt.2 ht')]
    | succ n ih =>
      intro hi h ht
      by_cases hc : t ≤ hi
      · refine ⟨hi, le_refl _, hc, ?_⟩
        intro fuel hf
        obtain ⟨m, rfl⟩ : ∃ m, fuel = m + 1 := ⟨fuel - 1, by omega⟩
        rw [expand, if_neg (not_lt.2 hc)]
      · have hpos : 0 < hi - lo := sub_pos.2 h
        have hbig : hi ≤ (hi - lo) * a + lo := by nlinarith
        obtain ⟨r, h1, h2, h3⟩ := ih ((hi - lo) * a + lo) (lt_of_lt_of_le h hbig) (by
          have e : lo + ((hi - lo) * a + lo - lo) * a ^ n = lo + (hi - lo) * a ^ (n + 1) := by ring
          rw [e]; exact ht)
        refine ⟨r, le_trans hbig h1, h2, ?_⟩
        intro fuel hf
        obtain ⟨m, rfl⟩ : ∃ m, fuel = m + 1 := ⟨fuel - 1, by omega⟩
        rw [expand, if_pos (not_le.1 hc)]
        exact h3 m (by omega)
  obtain ⟨n, hn⟩ := pow_unbounded_of_one_lt ((t - lo) / (hi - lo)) ha
  have hpos : 0 < hi - lo := sub_pos.2 h
  have : t - lo < a ^ n * (hi - lo) := (div_lt_iff₀ hpos).1 hn
  obtain ⟨r, hr⟩ := key n hi h (by nlinarith)
  exact ⟨n + 1, r, hr⟩

omit [Field K] [IsStrictOrderedRing K] in
theorem foldl_min_le (y : K) (l : List K) : l.foldl min y ≤ y ∧ ∀ z ∈ l, l.foldl min y ≤ z := by
  induction l generalizing y with
  | nil => simp
  | cons x l ih =>
    obtain ⟨h1, h2⟩ := ih (min y x)
    refine ⟨le_trans h1 (min_le_left _ _), ?_⟩
    intro z hz
    rcases List.mem_cons.1 hz with e | e
    · subst e; exact le_trans h1 (min_le_right _ _)
    · exact h2 z e

omit [Field K] [IsStrictOrderedRing K] in
theorem le_foldl_max (y : K) (l : List K) : y ≤ l.foldl max y ∧ ∀ z ∈ l, z ≤ l.foldl max y := by
  induction l generalizing y with
  | nil => simp
  | cons x l ih =>
    obtain ⟨h1, h2⟩ := ih (max y x)
    refine ⟨le_trans (le_max_left _ _) h1, ?_⟩
    intro z hz
    rcases List.mem_cons.1 hz with e | e
    · subst e; exact le_trans (le_max_right _ _) h1
    · exact h2 z e

/-- the limits are in order -/
def Ordered (r : (K × K) × (K × K)) : Prop := r.1.1 < r.1.2 ∧ r.2.1 < r.2.2

/-- the limits have grown, if anything -/
def Grown (r r' : (K × K) × (K × K)) : Prop := r'.1.1 ≤ r.1.1 ∧ r.1.2 ≤ r'.1.2 ∧ r'.2.1 ≤ r.2.1 ∧ r.2.2 ≤ r'.2.2

/-- the points are inside of the limits -/
def Inside (xs ys : List K) (r : (K × K) × (K × K)) : Prop := (∀ x ∈ xs, r.1.1 ≤ x ∧ x ≤ r.1.2) ∧ ∀ y ∈ ys, r.2.1 ≤ y ∧ y ≤ r.2.2

omit [Field K] [IsStrictOrderedRing K] in
theorem Inside.grown {xs ys : List K} {r r' : (K × K) × (K × K)} (h : Inside xs ys r) (g : Grown r r') : Inside xs ys r' :=
  ⟨fun x hx => ⟨le_trans g.1 (h.1 x hx).1, le_trans (h.1 x hx).2 g.2.1⟩, fun y hy => ⟨le_trans g.2.2.1 (h.2 y hy).1, le_trans (h.2 y hy).2 g.2.2.2⟩⟩

theorem scaleLine_ok [Archimedean K] (a : K) (ha : 1 < a) (xs ys : List K) (hx : xs ≠ []) (hy : ys ≠ []) (hs : xs.Pairwise (· ≤ ·)) (r : (K × K) × (K × K)) (hr : Ordered r) :
    ∃ N r', Ordered r' ∧ Grown r r' ∧ Inside xs ys r' ∧ ∀ fuel, N ≤ fuel → scaleLine fuel a xs ys r = .ok r' := by
  cases xs with
  | nil => exact absurd rfl hx
  | cons x xt =>
    cases ys with
    | nil => exact absurd rfl hy
    | cons y yt =>
      have hxlo : (if x < r.1.1 then x else r.1.1) ≤ r.1.1 ∧ (if x < r.1.1 then x else r.1.1) ≤ x := by
        split
        · rename_i h; exact ⟨h.le, le_refl _⟩
        · rename_i h; exact ⟨le_refl _, not_lt.1 h⟩
      have hylo : (if yt.foldl min y < r.2.1 then yt.foldl min y else r.2.1) ≤ r.2.1 ∧ (if yt.foldl min y < r.2.1 then yt.foldl min y else r.2.1) ≤ yt.foldl min y := by
        split
        · rename_i h; exact ⟨h.le, le_refl _⟩
        · rename_i h; exact ⟨le_refl _, not_lt.1 h⟩
      unfold scaleLine
      simp only
      generalize (if x < r.1.1 then x else r.1.1) = xlo at *
      generalize (if yt.foldl min y < r.2.1 then yt.foldl min y else r.2.1) = ylo at *
      obtain ⟨N1, xhi, h1, h2, h3⟩ := expand_ok a xlo ((x :: xt).getLast (by simp)) ha r.1.2 (lt_of_le_of_lt hxlo.1 hr.1)
      obtain ⟨N2, yhi, h4, h5, h6⟩ := expand_ok a ylo (yt.foldl max y) ha r.2.2 (lt_of_le_of_lt hylo.1 hr.2)
      refine ⟨max N1 N2, ((xlo, xhi), (ylo, yhi)), ⟨lt_of_lt_of_le (lt_of_le_of_lt hxlo.1 hr.1) h1, lt_of_lt_of_le (lt_of_le_of_lt hylo.1 hr.2) h4⟩, ⟨hxlo.1, h1, hylo.1, h4⟩, ⟨?_, ?_⟩, ?_⟩
      · intro z hz
        refine ⟨le_trans hxlo.2 ?_, le_trans ?_ h2⟩
        · rcases List.mem_cons.1 hz with e | e
          · rw [e]
          · exact List.rel_of_pairwise_cons hs e
        · obtain ⟨l', hl'⟩ : ∃ l', x :: xt = l' ++ [(x :: xt).getLast (by simp)] := ⟨_, (List.dropLast_append_getLast (by simp)).symm⟩
          generalize (x :: xt).getLast (by simp) = last at *
          rw [hl'] at hz hs
          rcases List.mem_append.1 hz with e | e
          · exact (List.pairwise_append.1 hs).2.2 z e last (by simp)
          · rw [List.mem_singleton.1 e]
      · intro z hz
        obtain ⟨m1, m2⟩ := foldl_min_le y yt
        obtain ⟨m3, m4⟩ := le_foldl_max y yt
        rcases List.mem_cons.1 hz with e | e
        · rw [e]; exact ⟨le_trans hylo.2 m1, le_trans m3 h5⟩
        · exact ⟨le_trans hylo.2 (m2 z e), le_trans (m4 z e) h5⟩
      · intro fuel hf
        rw [h3 fuel (le_trans (le_max_left _ _) hf), h6 fuel (le_trans (le_max_right _ _) hf)]

theorem updateLines_ok [Archimedean K] (p : Plot K) (ha : 1 < p.autoscale) : ∀ (ls : List (Line K)) (r : (K × K) × (K × K)), Ordered r →
    (∀ l ∈ ls, p.obj l.xs ≠ [] ∧ p.obj l.ys ≠ [] ∧ (p.obj l.xs).Pairwise (· ≤ ·)) →
    ∃ N r', Ordered r' ∧ Grown r r' ∧ (∀ l ∈ ls, Inside (p.obj l.xs) (p.obj l.ys) r') ∧ ∀ fuel, N ≤ fuel → (updateLines fuel p ls r).2 = .ok r'
  | [], r, hr, _ => ⟨0, r, hr, ⟨le_refl _, le_refl _, le_refl _, le_refl _⟩, by simp, fun _ _ => rfl⟩
  | l :: ls, r, hr, h => by
    obtain ⟨h1, h2, h3⟩ := h l (by simp)
    obtain ⟨N1, r1, o1, g1, i1, f1⟩ := scaleLine_ok p.autoscale ha _ _ h1 h2 h3 r hr
    obtain ⟨N2, r2, o2, g2, i2, f2⟩ := updateLines_ok p ha ls r1 o1 fun l' hl' => h l' (by simp [hl'])
    refine ⟨max N1 N2, r2, o2, ⟨le_trans g2.1 g1.1, le_trans g1.2.1 g2.2.1, le_trans g2.2.2.1 g1.2.2.1, le_trans g1.2.2.2 g2.2.2.2⟩, ?_, ?_⟩
    · intro l' hl'
      rcases List.mem_cons.1 hl' with e | e
      · rw [e]; exact i1.grown g2
      · exact i2 l' e
    · intro fuel hf
      unfold updateLines
      simp only [gt_iff_lt, if_pos ha]
      rw [f1 fuel (le_trans (le_max_left _ _) hf)]
      exact f2 fuel (le_trans (le_max_right _ _) hf)

theorem updateLines_kept (p : Plot K) (fuel : Nat) : ∀ (ls : List (Line K)) (r : (K × K) × (K × K)),
    (∀ l ∈ ls, p.obj l.xs ≠ [] ∧ p.obj l.ys ≠ [] ∧ Inside (p.obj l.xs) (p.obj l.ys) r) → (updateLines (fuel + 1) p ls r).2 = .ok r
  | [], r, _ => rfl
  | l :: ls, r, h => by
    obtain ⟨h1, h2, h3⟩ := h l (by simp)
    have hs : scaleLine (fuel + 1) p.autoscale (p.obj l.xs) (p.obj l.ys) r = .ok r := by
      generalize p.obj l.xs = xs at *
      generalize p.obj l.ys = ys at *
      cases xs with
      | nil => exact absurd rfl h1
      | cons x xt =>
        cases ys with
        | nil => exact absurd rfl h2
        | cons y yt =>
          have mem_min : ∀ (l : List K) (y : K), l.foldl min y = y ∨ l.foldl min y ∈ l := by
            intro l
            induction l with
            | nil => intro y; simp
            | cons z l ih =>
              intro y
              rcases ih (min y z) with e | e
              · rcases min_choice y z with c | c
                · left; rw [List.foldl_cons, e, c]
                · right; rw [List.foldl_cons, e, c]; simp
              · right; rw [List.foldl_cons]; exact List.mem_cons_of_mem _ e
          have mem_max : ∀ (l : List K) (y : K), l.foldl max y = y ∨ l.foldl max y ∈ l := by
            intro l
            induction l with
            | nil => intro y; simp
            | cons z l ih =>
              intro y
              rcases ih (max y z) with e | e
              · rcases max_choice y z with c | c
                · left; rw [List.foldl_cons, e, c]
                · right; rw [List.foldl_cons, e, c]; simp
              · right; rw [List.foldl_cons]; exact List.mem_cons_of_mem _ e
          have e1 : ¬ x < r.1.1 := not_lt.2 (h3.1 x (by simp)).1
          have e2 : ¬ yt.foldl min y < r.2.1 := by
            apply not_lt.2
            rcases mem_min yt y with e | e
            · rw [e]; exact (h3.2 y (by simp)).1
            · exact (h3.2 _ (by simp [e])).1
          have e3 : ¬ (x :: xt).getLast (by simp) > r.1.2 := not_lt.2 (h3.1 _ (List.getLast_mem _)).2
          have e4 : ¬ yt.foldl max y > r.2.2 := by
            apply not_lt.2
            rcases mem_max yt y with e | e
            · rw [e]; exact (h3.2 y (by simp)).2
            · exact (h3.2 _ (by simp [e])).2
          unfold scaleLine
          simp only [expand, if_neg e1, if_neg e2, if_neg e3, if_neg e4]
    have hif : (if p.autoscale > 1 then scaleLine (fuel + 1) p.autoscale (p.obj l.xs) (p.obj l.ys) r else .ok r) = .ok r := by
      rw [hs]; simp
    unfold updateLines
    rw [hif]
    exact updateLines_kept p fuel ls r fun l' hl' => h l' (by simp [hl'])

theorem expand_forever (a lo t : K) (ha : 1 < a) : ∀ (fuel : Nat) (hi : K), hi ≤ lo → hi < t → expand fuel a lo hi t = .error .forever
  | 0, _, _, _ => rfl
  | n + 1, hi, h, ht => by
    rw [expand, if_pos ht]
    have hle : (hi - lo) * a + lo ≤ hi := by nlinarith
    exact expand_forever a lo t ha n _ (le_trans hle h) (lt_of_le_of_lt hle ht)

omit [IsStrictOrderedRing K] in
theorem updateLines_empty (fuel : Nat) (p : Plot K) (ha : 1 < p.autoscale) : ∀ (ls : List (Line K)) (r : (K × K) × (K × K)), (∃ l ∈ ls, p.obj l.xs = []) →
    ∃ e, (updateLines fuel p ls r).2 = .error e
  | [], r, h => by simp at h
  | l :: ls, r, h => by
    unfold updateLines
    simp only [gt_iff_lt, if_pos ha]
    split
    · exact ⟨_, rfl⟩
    · rename_i r' hr'
      obtain ⟨l', hl', he⟩ := h
      rcases List.mem_cons.1 hl' with e | e
      · rw [e] at he
        rw [he] at hr'
        exact absurd hr' (by simp [scaleLine])
      · exact updateLines_empty fuel p ha ls r' ⟨l', e, he⟩

end

/-! ### styles -/

theorem dget_merge (q : String) : ∀ (kw s : Sty), q ∉ kw.map Prod.fst → dget (merge s kw) q = dget s q
  | [], s, _ => rfl
  | e :: kw, s, h => by
    have h1 : e.1 ≠ q := fun c => h (by simp [c])
    have h2 : q ∉ kw.map Prod.fst := fun c => h (by simp only [List.map_cons, List.mem_cons]; exact Or.inr c)
    have : merge s (e :: kw) = merge (dset s e.1 e.2) kw := rfl
    rw [this, dget_merge q kw _ h2, dget_dset_ne _ _ _ _ h1]

theorem dget_merge_mem : ∀ (kw s : Sty), (kw.map Prod.fst).Nodup → ∀ e ∈ kw, dget (merge s kw) e.1 = some e.2
  | [], s, _, e, he => by simp at he
  | x :: kw, s, h, e, he => by
    have hm : merge s (x :: kw) = merge (dset s x.1 x.2) kw := rfl
    rw [List.map_cons, List.nodup_cons] at h
    rcases List.mem_cons.1 he with c | c
    · subst c
      rw [hm, dget_merge _ kw _ h.1, dget_dset_self]
    · rw [hm]; exact dget_merge_mem kw _ h.2 e c

theorem newLines_get (n : Nat) : ∀ (p : Plot K), (∀ i, i < p.lines.length → (newLines n p).lines[i]? = p.lines[i]?) ∧
    ∀ i, p.lines.length ≤ i → i < p.lines.length + n → ∃ l, (newLines n p).lines[i]? = some l ∧ l.style = p.default := by
  induction n with
  | zero => exact fun p => ⟨fun _ _ => rfl, fun i h h' => by omega⟩
  | succ n ih =>
    intro p
    obtain ⟨h1, h2⟩ := ih (newLine p)
    have hl : (newLine p).lines.length = p.lines.length + 1 := by simp [newLine]
    constructor
    · intro i hi
      rw [newLines, h1 i (by omega)]
      unfold newLine
      rw [List.getElem?_append_left hi]
    · intro i hi hi'
      rcases Nat.eq_or_lt_of_le hi with e | e
      · subst e
        rw [newLines, h1 _ (by omega)]
        refine ⟨{ xs := p.heap.length, ys := p.heap.length + 1, color := p.lines.length % 9, style := p.default, drawn := ([], []) }, ?_, rfl⟩
        simp [newLine]
      · obtain ⟨l, e1, e2⟩ := h2 i (by omega) (by omega)
        exact ⟨l, e1, e2⟩

theorem check_get (p : Plot K) (id : Nat) : (∀ i, i < p.lines.length → (check p id).lines[i]? = p.lines[i]?) ∧
    (p.lines.length ≤ id → ∃ l, (check p id).lines[id]? = some l ∧ l.style = p.default) := by
  unfold check
  split
  · obtain ⟨h1, h2⟩ := newLines_get ((id : Int) + 1 - p.lines.length).toNat p
    exact ⟨h1, fun h => h2 id h (by omega)⟩
  · exact ⟨fun _ _ => rfl, fun h => by omega⟩

/-- the numbers of all points, one line after the other -/
theorem fileOf_ok (p : Plot K) (h : Own p) : saveData p = .ok ((List.range p.lines.length).flatMap fun k => (series p k).flatMap fun q => [q.1, q.2]) := by
  have hpairs : ∀ (xs ys : List K), xs.length = ys.length → pairs xs ys = .ok ((xs.zip ys).flatMap fun q => [q.1, q.2]) := by
    intro xs
    induction xs with
    | nil => intro ys _; cases ys <;> rfl
    | cons x xs ih =>
      intro ys hl
      cases ys with
      | nil => simp at hl
      | cons y ys =>
        rw [pairs, ih ys (by simpa using hl)]
        rfl
  have key : ∀ (ls : List (Line K)), (∀ l ∈ ls, (p.obj l.xs).length = (p.obj l.ys).length) →
      fileOf p ls = .ok (ls.flatMap fun l => ((p.obj l.xs).zip (p.obj l.ys)).flatMap fun q => [q.1, q.2]) := by
    intro ls
    induction ls with
    | nil => intro _; rfl
    | cons l ls ih =>
      intro hl
      unfold fileOf
      rw [hpairs _ _ (hl l (by simp)), ih fun l' h' => hl l' (by simp [h'])]
      rfl
  unfold saveData
  rw [key p.lines fun l hl => by
    obtain ⟨k, hk⟩ := List.mem_iff_getElem?.1 hl
    exact h.same k l hk]
  congr 1
  have hrange : ∀ (ls : List (Line K)) (f : Line K → List K), ls.flatMap f = (List.range ls.length).flatMap fun k => match ls[k]? with | none => [] | some l => f l := by
    intro ls f
    induction ls with
    | nil => rfl
    | cons l ls ih =>
      rw [List.length_cons, List.range_succ_eq_map, List.flatMap_cons, List.flatMap_cons, ih, List.flatMap_map]
      rfl
  rw [hrange]
  congr 1
  funext k
  unfold series
  cases p.lines[k]? <;> rfl

end Verif.Multiline

namespace Verif.Props
open Verif.Py Verif.Multiline

variable {K : Type} [Field K] [LinearOrder K]

/-- **C190, points.** Whatever lines are added to, replaced, styled or drawn, every line has the points that were given to it, in this order; its number is the one given, plus the offset at that time. -/
theorem C190_points (fuel : Nat) (maxLines : Int) (autoscale : K) (xr yr : K × K) (ops : List (Op K)) (h : Proper 0 ops) (k : Nat) :
    series (run fuel (init maxLines autoscale xr yr) ops) k = expected k 0 [] ops := by
  obtain ⟨h1, h2⟩ := init_own maxLines autoscale xr yr
  have := (run_series fuel ops (init maxLines autoscale xr yr) h1 h).2 k
  rw [this, h2]
  rfl

/-- **C190, no errors.** Points with numbers of lines that are not negative are accepted, and the lines up to this number exist then. -/
theorem C190_accepted (fuel : Nat) (maxLines : Int) (autoscale : K) (xr yr : K × K) (ops : List (Op K)) (h : Proper 0 ops) (id : Int) (x y : K) :
    let p := run fuel (init maxLines autoscale xr yr) ops
    0 ≤ id + p.offset → (add p id x y).2 = none ∧ ((add p id x y).1.lines.length : Int) = max (p.lines.length : Int) (id + p.offset + 1) := by
  intro p hid
  obtain ⟨-, h2, -, h4, -⟩ := add_own p (run_series fuel ops _ (init_own maxLines autoscale xr yr).1 h).1 id x y hid
  exact ⟨h2, h4⟩

/-- **C190, drawing.** After an update all lines show the points they have, also if the plotter did nothing because it took the figure to be current; line number `k` has colour number `k` modulo 9. This holds for all calls,
with shared lists, too. -/
theorem C190_drawn (fuel : Nat) (maxLines : Int) (autoscale : K) (xr yr : K × K) (ops : List (Op K)) :
    let p := run fuel (init maxLines autoscale xr yr) ops
    (update fuel p).2 = none → ∀ (k : Nat) (l : Line K), (update fuel p).1.lines[k]? = some l → l.drawn = ((update fuel p).1.obj l.xs, (update fuel p).1.obj l.ys) ∧ l.color = k % 9 := by
  intro p hn k l hl
  have h0 : Cur (init maxLines autoscale xr yr) ∧ Col (init maxLines autoscale xr yr) := by
    refine ⟨fun hr => absurd hr (by simp [init]), ?_⟩
    exact (check_cc ({ heap := [], lines := [], default := [], replot := true, current := none, offset := 0, autoscale := autoscale, xr := xr, yr := yr } : Plot K) (maxLines - 1)
      (fun hr => absurd hr (by simp)) (fun k l h => by simp at h)).2
  obtain ⟨h1, h2⟩ := run_cc fuel ops _ h0.1 h0.2
  obtain ⟨-, h4, h5⟩ := update_cc fuel p h1 h2
  exact ⟨h5 hn l (List.mem_of_getElem? hl), h4 k l hl⟩

example : let ops : List (Op ℚ) := [.add 0 1 2, .update, .offset 1, .adds 0 [1, 2] [3, 4], .style (.one 3) [("linewidth", "2")], .set 1 (.new [5]) (.new [6]), .update, .add 0 7 8]
    Proper 0 ops ∧ (List.range 5).map (series (run 9 (init 1 2 (0, 1) (0, 1)) ops)) = [[(1, 2)], [(1, 3), (2, 4), (7, 8)], [(5, 6)], [], []] := by
  refine ⟨?_, by decide +kernel⟩
  simp [Proper]

/-- **C190, limits.** With automatic scaling, an update ends, never makes an axis smaller, and leaves all points inside of the limits, if no line is empty and the points are given from left to right. -/
theorem C190_range_partial [IsStrictOrderedRing K] [Archimedean K] (p : Plot K) (ha : 1 < p.autoscale) (hr : p.replot = true) (ho : Ordered (p.xr, p.yr))
    (hl : ∀ l ∈ p.lines, p.obj l.xs ≠ [] ∧ p.obj l.ys ≠ [] ∧ (p.obj l.xs).Pairwise (· ≤ ·)) :
    ∃ N r, Ordered r ∧ Grown (p.xr, p.yr) r ∧ (∀ l ∈ p.lines, Inside (p.obj l.xs) (p.obj l.ys) r) ∧
      ∀ fuel, N ≤ fuel → (update fuel p).2 = none ∧ (update fuel p).1.xr = r.1 ∧ (update fuel p).1.yr = r.2 := by
  obtain ⟨N, r, h1, h2, h3, h4⟩ := updateLines_ok p ha p.lines (p.xr, p.yr) ho hl
  refine ⟨N, r, h1, h2, h3, ?_⟩
  intro fuel hf
  have e := h4 fuel hf
  unfold update
  rw [if_pos hr]
  simp only [e]
  exact ⟨trivial, trivial, trivial⟩

/-- **C190, limits that are not changed.** If all points are inside of the limits already, these remain. -/
theorem C190_range_kept [IsStrictOrderedRing K] (p : Plot K) (fuel : Nat) (hl : ∀ l ∈ p.lines, p.obj l.xs ≠ [] ∧ p.obj l.ys ≠ [] ∧ Inside (p.obj l.xs) (p.obj l.ys) (p.xr, p.yr)) :
    (update (fuel + 1) p).2 = none ∧ (update (fuel + 1) p).1.xr = p.xr ∧ (update (fuel + 1) p).1.yr = p.yr := by
  have e := updateLines_kept p fuel p.lines (p.xr, p.yr) hl
  unfold update
  split
  · simp only [e]
    exact ⟨trivial, trivial, trivial⟩
  · exact ⟨rfl, rfl, rfl⟩

example : let p := run 9 (init 1 2 (0, 1) (0, 1)) ([.adds 0 [-1, 2, 7] [3, -4, 1], .update] : List (Op ℚ))
    p.xr = (-1, 7) ∧ p.yr = (-4, 6) := by decide +kernel

/-- **C190 fails for points that are not given from left to right:** only the first and the last point are looked at, the others may be outside of the figure. -/
theorem C190_negation_unsorted : let p := run 9 (init 1 2 (0, 1) (0, 1)) ([.adds 0 [0, 5, 1] [0, 0, 0], .update] : List (Op ℚ))
    series p 0 = [(0, 0), (5, 0), (1, 0)] ∧ p.replot = false ∧ p.xr = (0, 1) := by decide +kernel

/-- **C190 fails for empty lines:** with automatic scaling no update succeeds as long as one of the lines made in advance has no points. -/
theorem C190_negation_empty (fuel : Nat) (p : Plot K) (ha : 1 < p.autoscale) (hr : p.replot = true) (h : ∃ l ∈ p.lines, p.obj l.xs = []) :
    (update fuel p).2 ≠ none ∧ (update fuel p).1.replot = true := by
  obtain ⟨e, he⟩ := updateLines_empty fuel p ha p.lines (p.xr, p.yr) h
  unfold update
  rw [if_pos hr]
  simp only [he]
  exact ⟨by simp, hr⟩

example : (step 9 (run 9 (init 2 2 (0, 1) (0, 1)) ([.add 0 1 1] : List (Op ℚ))) .update).2 = some .index := by decide +kernel

/-- **C190 fails for axes that run backwards:** if the right end of the axis is not larger than the left end and the first point, and the last point is larger, the update never ends. -/
theorem C190_negation_backwards [IsStrictOrderedRing K] (p : Plot K) (ha : 1 < p.autoscale) (hr : p.replot = true) (l : Line K) (ls : List (Line K)) (hls : p.lines = l :: ls) (x : K) (xt : List K)
    (hx : p.obj l.xs = x :: xt) (hy : p.obj l.ys ≠ []) (h1 : p.xr.2 ≤ p.xr.1) (h2 : p.xr.2 ≤ x) (h3 : p.xr.2 < (x :: xt).getLast (by simp)) (fuel : Nat) :
    (update fuel p).2 = some .forever := by
  have hs : scaleLine fuel p.autoscale (p.obj l.xs) (p.obj l.ys) (p.xr, p.yr) = .error .forever := by
    rw [hx]
    cases hc : p.obj l.ys with
    | nil => exact absurd hc hy
    | cons y yt =>
      unfold scaleLine
      simp only
      rw [expand_forever p.autoscale _ _ ha fuel p.xr.2 (by split <;> assumption) h3]
  unfold update
  rw [if_pos hr, hls]
  unfold updateLines
  simp only [gt_iff_lt, if_pos ha, hs]

example : (step 99 (run 9 (init 1 2 (10, 0) (0, 1)) ([.adds 0 [1, 5] [0, 0]] : List (Op ℚ))) .update).2 = some .forever := by decide +kernel

/-- **C190 fails for shared lists:** a list given to two lines is the same for both, and a point added to one of them gives the other one a horizontal coordinate without a vertical one; saving fails then. -/
theorem C190_negation_shared : let p := run 9 (init 1 0 (0, 1) (0, 1)) ([.set 0 (.new [1, 2]) (.new [3, 4]), .set 1 (.old 2) (.new [5, 6]), .add 0 7 8] : List (Op ℚ))
    p.lines.map (fun l => (p.obj l.xs, p.obj l.ys)) = [([1, 2, 7], [3, 4, 8]), ([1, 2, 7], [5, 6])] ∧ (saveData p).toOption = none := by decide +kernel

/-- **C190, styles.** A style without a colour is given to the line with the number (plus the offset), which is made if necessary; the other lines keep theirs, and lines made afterwards get the new one. -/
theorem C190_style {K : Type} (p : Plot K) (id : Int) (kw : Sty) (hid : 0 ≤ id) (k : Nat) (hk : id + p.offset = k) (hn : (kw.map Prod.fst).Nodup) (hc : dget kw "color" = none) :
    ∃ p', setLineStyle p (.one id) kw = (p', none) ∧
      (∃ l, p'.lines[k]? = some l ∧ (∀ e ∈ kw, dget l.style e.1 = some e.2) ∧ ∀ q, q ∉ kw.map Prod.fst → dget l.style q = dget (((p.lines[k]?).map (·.style)).getD p.default) q) ∧
      (∀ j, j ≠ k → j < p.lines.length → p'.lines[j]? = p.lines[j]?) ∧
      ∀ j : Nat, p'.lines.length ≤ j → ∃ l, (check p' j).lines[j]? = some l ∧ l.style = kw := by
  obtain ⟨c1, c2⟩ := check_get p k
  obtain ⟨c3, -⟩ := check_frame p k
  have hlt : k < (check p k).lines.length := by omega
  have hnorm : normIdx (check p k).lines.length (id + p.offset) = some k := by
    unfold normIdx
    rw [hk, if_pos (by omega), if_pos (by omega)]
    simp
  have hset : setLineStyle p (.one id) kw = ({ check p k with lines := (check p k).lines.modify k (fun l => { l with style := merge l.style kw }), default := kw }, none) := by
    have hap : applyStyle p kw (.one id) = styleLine (check p (id + p.offset)) (id + p.offset) kw := if_pos hid
    unfold setLineStyle
    rw [hap]
    unfold styleLine
    rw [hk] at hnorm ⊢
    rw [hnorm]
    simp [hc]
  refine ⟨_, hset, ?_, ?_, ?_⟩
  · refine ⟨{ (check p k).lines[k] with style := merge (check p k).lines[k].style kw }, ?_, ?_, ?_⟩
    · simp [List.getElem?_modify, List.getElem?_eq_getElem hlt]
    · exact dget_merge_mem kw _ hn
    · intro q hq
      show dget (merge _ kw) q = _
      rw [dget_merge q kw _ hq]
      by_cases hkl : k < p.lines.length
      · have := c1 k hkl
        rw [List.getElem?_eq_getElem hlt, List.getElem?_eq_getElem hkl] at this
        rw [List.getElem?_eq_getElem hkl, Option.some.inj this]
        rfl
      · obtain ⟨l, e1, e2⟩ := c2 (by omega)
        rw [List.getElem?_eq_getElem hlt] at e1
        rw [Option.some.inj e1, e2, List.getElem?_eq_none (by omega)]
        rfl
  · intro j hj hjl
    show ((check p k).lines.modify k _)[j]? = _
    rw [List.getElem?_modify, ← c1 j hjl]
    simp only [if_neg (Ne.symm hj), Option.map_eq_map]
    cases (check p k).lines[j]? <;> rfl
  · intro j hj
    exact (check_get _ j).2 hj

example : ((run 9 (init 1 0 (0, 1) (0, 1)) ([.style (.one 1) [("linewidth", "2")], .add 2 0 0] : List (Op ℚ))).lines.map (·.style)) = [[], [("linewidth", "2")], [("linewidth", "2")]] := by decide +kernel

/-- **C190 fails for colours:** no call that sets a colour succeeds (the line may have got the colour nevertheless, but the style for new lines is not changed). -/
theorem C190_negation_color {K : Type} (p : Plot K) (w : Which) (kw : Sty) (h : (dget kw "color").isSome) : (setLineStyle p w kw).2 ≠ none := by
  unfold setLineStyle
  generalize applyStyle p kw w = q
  obtain ⟨q, e⟩ := q
  cases e with
  | some e => simp
  | none => simp [h]

/-- **C190 fails for the line used last:** a style without a number is for the line added to last, but the offset is added to its number twice; and before points were added the call fails. -/
theorem C190_negation_last :
    ((run 9 (init 1 0 (0, 1) (0, 1)) ([.offset 1, .add 0 5 5, .style .last [("linewidth", "2")]] : List (Op ℚ))).lines.map (·.style)) = [[], [], [("linewidth", "2")]] ∧
    (setLineStyle (init 1 0 (0, 1) (0, 1) : Plot ℚ) .last [("linewidth", "2")]).2 = some .type := by decide +kernel

/-- **C190, files.** The file of the data has the two numbers of each point, one line of the plot after the other. -/
theorem C190_file (fuel : Nat) (maxLines : Int) (autoscale : K) (xr yr : K × K) (ops : List (Op K)) (h : Proper 0 ops) :
    let p := run fuel (init maxLines autoscale xr yr) ops
    saveData p = .ok ((List.range p.lines.length).flatMap fun (k : Nat) => (expected k 0 [] ops).flatMap fun q => [q.1, q.2]) := by
  intro p
  have e := fileOf_ok p (run_series fuel ops _ (init_own maxLines autoscale xr yr).1 h).1
  rw [e]
  congr 1
  congr 1
  funext k
  rw [C190_points fuel maxLines autoscale xr yr ops h k]

example : (saveData (run 9 (init 1 0 (0, 1) (0, 1)) ([.add 0 1 2, .add 1 3 4, .add 0 5 6] : List (Op ℚ)))).toOption = some [1, 2, 5, 6, 3, 4] := by decide +kernel

/-- **C190 fails for reading files:** they do not tell where a line of the plot ends, so that different plots have the same file. -/
theorem C190_negation_file : let p := run 9 (init 1 0 (0, 1) (0, 1)) ([.add 0 1 2, .add 0 3 4] : List (Op ℚ))
    let q := run 9 (init 1 0 (0, 1) (0, 1)) ([.add 0 1 2, .add 1 3 4] : List (Op ℚ))
    (saveData p).toOption = some [1, 2, 3, 4] ∧ (saveData q).toOption = some [1, 2, 3, 4] ∧ series p 0 ≠ series q 0 := by decide +kernel

end Verif.Props
