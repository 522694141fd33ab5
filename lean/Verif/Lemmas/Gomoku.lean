import Verif.Spec.Gomoku
import Mathlib.Data.List.Nodup
/-
Lemmas on Go-Moku and Pente: five in a row, flanked pairs, counting stones.
-/
namespace Verif.Gomoku
open Verif.DataSet (Err)
open Verif.Capture (Cell Color Color.cell Color.opp upd)
open Spec

theorem inside_iff (size : Nat × Nat) (p : Pos) : inside size p = true ↔ Point size p := by
  simp only [inside, Point, Bool.not_eq_true', Bool.or_eq_false_iff, decide_eq_false_iff_not]
  omega

theorem color_ne_empty (c : Color) : c.cell ≠ .empty := by cases c <;> simp [Color.cell]
theorem color_ne_opp (c : Color) : c.cell ≠ c.opp.cell := by cases c <;> simp [Color.cell, Color.opp]
theorem cell_inj {c c' : Color} (h : c.cell = c'.cell) : c = c' := by cases c <;> cases c' <;> simp_all [Color.cell]

/-! ### Five in a row -/

def good (size : Nat × Nat) (b : Pos → Cell) (c : Color) (p : Pos) : Bool := inside size p && decide (b p = c.cell)

theorem good_iff (size : Nat × Nat) (b : Pos → Cell) (c : Color) (p : Pos) : good size b c p = true ↔ Point size p ∧ b p = c.cell := by
  simp [good, inside_iff]

def run4 (a1 a2 a3 a4 : Bool) : Nat := if a1 then 1 + (if a2 then 1 + (if a3 then 1 + (if a4 then 1 + 0 else 0) else 0) else 0) else 0

theorem runLength_eq (size : Nat × Nat) (b : Pos → Cell) (c : Color) (pos dir : Pos) (d : Int) :
    runLength size b c pos dir d [1, 2, 3, 4] = run4 (good size b c (next pos dir 1 d)) (good size b c (next pos dir 2 d))
      (good size b c (next pos dir 3 d)) (good size b c (next pos dir 4 d)) := by
  have h : ∀ (p : Pos) (x : Nat), (if (!inside size p || decide (b p ≠ c.cell)) = true then 0 else x) = if good size b c p then x else 0 := by
    intro p x
    simp only [good]
    by_cases hi : inside size p = true <;> by_cases hb : b p = c.cell <;> simp [hb, hi]
  simp only [runLength, run4, h]

theorem run_five : ∀ a1 a2 a3 a4 b1 b2 b3 b4 : Bool, (1 + run4 a1 a2 a3 a4 + run4 b1 b2 b3 b4 ≥ 5) ↔
    ((a1 && a2 && a3 && a4) || (a1 && a2 && a3 && b1) || (a1 && a2 && b1 && b2) || (a1 && b1 && b2 && b3) || (b1 && b2 && b3 && b4)) = true := by
  decide

theorem shift_zero (p dir : Pos) : shift p dir 0 = p := by simp [shift]

theorem shift_shift (p dir : Pos) (i j : Int) : shift (shift p dir i) dir j = shift p dir (i + j) := by
  simp only [shift, Prod.mk.injEq]
  constructor <;> rw [Int.add_mul] <;> omega

theorem shift_ne (p dir : Pos) (hd : dir ∈ dirs) (i : Int) (hi : i ≠ 0) : shift p dir i ≠ p := by
  obtain ⟨x, y⟩ := p
  simp only [dirs, List.mem_cons, List.not_mem_nil, or_false] at hd
  rcases hd with rfl | rfl | rfl | rfl <;> simp [shift] <;> omega

/-- a line through `pos`, seen from `pos` -/
theorem fiveLine_from (size : Nat × Nat) (b : Pos → Cell) (c : Color) (pos dir : Pos) (hd : dir ∈ dirs) (hpos : Point size pos) (k : Int) (_ : 0 ≤ k) (_ : k < 5) :
    FiveLine size (place b c pos) c (shift pos dir (-k)) dir ↔ ∀ j : Int, -k ≤ j → j < 5 - k → j ≠ 0 → good size b c (shift pos dir j) = true := by
  constructor
  · rintro ⟨_, h⟩ j h1 h2 h3
    have := h (j + k) (by omega) (by omega)
    rw [shift_shift, show -k + (j + k) = j by omega] at this
    rw [good_iff]
    refine ⟨this.1, ?_⟩
    have h4 := this.2
    rwa [place, if_neg (shift_ne pos dir hd j h3)] at h4
  · intro h
    refine ⟨hd, fun j h1 h2 => ?_⟩
    rw [shift_shift]
    by_cases h3 : -k + j = 0
    · rw [h3, shift_zero]
      exact ⟨hpos, by simp [place]⟩
    · have := (good_iff _ _ _ _).1 (h (-k + j) (by omega) (by omega) h3)
      exact ⟨this.1, by rw [place, if_neg (shift_ne pos dir hd _ h3)]; exact this.2⟩

theorem next_neg (pos dir : Pos) (i : Int) : next pos dir i (-1) = shift pos dir (-i) := by
  simp only [next, shift, Prod.mk.injEq]
  constructor
  · rw [Int.mul_neg, Int.mul_one, Int.neg_mul, Int.mul_comm]
  · rw [Int.mul_neg, Int.mul_one, Int.neg_mul, Int.mul_comm]

theorem next_pos (pos dir : Pos) (i : Int) : next pos dir i 1 = shift pos dir i := by
  simp only [next, shift, Prod.mk.injEq]
  constructor
  · rw [Int.mul_one, Int.mul_comm]
  · rw [Int.mul_one, Int.mul_comm]

theorem fiveRow_iff (size : Nat × Nat) (b : Pos → Cell) (c : Color) (pos : Pos) (hpos : Point size pos) :
    fiveRow size b c pos = true ↔ Completes size b c pos := by
  have key : fiveRow size b c pos = true ↔ ∃ dir ∈ dirs, ∃ k : Int, 0 ≤ k ∧ k < 5 ∧ FiveLine size (place b c pos) c (shift pos dir (-k)) dir := by
    rw [fiveRow, List.any_eq_true]
    refine exists_congr (fun dir => and_congr_right (fun hd => ?_))
    rw [decide_eq_true_eq, runLength_eq, runLength_eq, run_five]
    simp only [next_neg, next_pos, Bool.or_eq_true, Bool.and_eq_true]
    constructor
    · rintro ((((h | h) | h) | h) | h)
      · refine ⟨4, by omega, by omega, (fiveLine_from _ _ _ _ _ hd hpos 4 (by omega) (by omega)).2 (fun j h1 h2 h3 => ?_)⟩
        have : j = -1 ∨ j = -2 ∨ j = -3 ∨ j = -4 := by omega
        rcases this with rfl | rfl | rfl | rfl
        exacts [h.1.1.1, h.1.1.2, h.1.2, h.2]
      · refine ⟨3, by omega, by omega, (fiveLine_from _ _ _ _ _ hd hpos 3 (by omega) (by omega)).2 (fun j h1 h2 h3 => ?_)⟩
        have : j = -1 ∨ j = -2 ∨ j = -3 ∨ j = 1 := by omega
        rcases this with rfl | rfl | rfl | rfl
        exacts [h.1.1.1, h.1.1.2, h.1.2, h.2]
      · refine ⟨2, by omega, by omega, (fiveLine_from _ _ _ _ _ hd hpos 2 (by omega) (by omega)).2 (fun j h1 h2 h3 => ?_)⟩
        have : j = -1 ∨ j = -2 ∨ j = 1 ∨ j = 2 := by omega
        rcases this with rfl | rfl | rfl | rfl
        exacts [h.1.1.1, h.1.1.2, h.1.2, h.2]
      · refine ⟨1, by omega, by omega, (fiveLine_from _ _ _ _ _ hd hpos 1 (by omega) (by omega)).2 (fun j h1 h2 h3 => ?_)⟩
        have : j = -1 ∨ j = 1 ∨ j = 2 ∨ j = 3 := by omega
        rcases this with rfl | rfl | rfl | rfl
        exacts [h.1.1.1, h.1.1.2, h.1.2, h.2]
      · refine ⟨0, by omega, by omega, (fiveLine_from _ _ _ _ _ hd hpos 0 (by omega) (by omega)).2 (fun j h1 h2 h3 => ?_)⟩
        have : j = 1 ∨ j = 2 ∨ j = 3 ∨ j = 4 := by omega
        rcases this with rfl | rfl | rfl | rfl
        exacts [h.1.1.1, h.1.1.2, h.1.2, h.2]
    · rintro ⟨k, h0, h1, h⟩
      rw [fiveLine_from _ _ _ _ _ hd hpos k h0 h1] at h
      have : k = 0 ∨ k = 1 ∨ k = 2 ∨ k = 3 ∨ k = 4 := by omega
      rcases this with rfl | rfl | rfl | rfl | rfl
      · exact Or.inr ⟨⟨⟨h 1 (by omega) (by omega) (by omega), h 2 (by omega) (by omega) (by omega)⟩, h 3 (by omega) (by omega) (by omega)⟩, h 4 (by omega) (by omega) (by omega)⟩
      · exact Or.inl (Or.inr ⟨⟨⟨h (-1) (by omega) (by omega) (by omega), h 1 (by omega) (by omega) (by omega)⟩, h 2 (by omega) (by omega) (by omega)⟩, h 3 (by omega) (by omega) (by omega)⟩)
      · exact Or.inl (Or.inl (Or.inr ⟨⟨⟨h (-1) (by omega) (by omega) (by omega), h (-2) (by omega) (by omega) (by omega)⟩, h 1 (by omega) (by omega) (by omega)⟩, h 2 (by omega) (by omega) (by omega)⟩))
      · exact Or.inl (Or.inl (Or.inl (Or.inr ⟨⟨⟨h (-1) (by omega) (by omega) (by omega), h (-2) (by omega) (by omega) (by omega)⟩, h (-3) (by omega) (by omega) (by omega)⟩, h 1 (by omega) (by omega) (by omega)⟩)))
      · exact Or.inl (Or.inl (Or.inl (Or.inl ⟨⟨⟨h (-1) (by omega) (by omega) (by omega), h (-2) (by omega) (by omega) (by omega)⟩, h (-3) (by omega) (by omega) (by omega)⟩, h (-4) (by omega) (by omega) (by omega)⟩)))
  rw [key]
  constructor
  · rintro ⟨dir, hd, k, h0, h1, h⟩
    exact ⟨_, dir, h, k, h0, h1, by rw [shift_shift, show -k + k = 0 by omega, shift_zero]⟩
  · rintro ⟨start, dir, h, j, h0, h1, hs⟩
    refine ⟨dir, h.1, j, h0, h1, ?_⟩
    have : shift pos dir (-j) = start := by rw [← hs, shift_shift, show j + -j = 0 by omega, shift_zero]
    rw [this]; exact h

/-- a line on the board after a move that completes none was there before -/
theorem fiveLine_old (size : Nat × Nat) (b : Pos → Cell) (c c' : Color) (pos start dir : Pos) (hc : ¬ Completes size b c pos)
    (h : FiveLine size (place b c pos) c' start dir) : FiveLine size b c' start dir := by
  by_cases hex : ∃ j : Int, 0 ≤ j ∧ j < 5 ∧ shift start dir j = pos
  · obtain ⟨j, h0, h1, hs⟩ := hex
    have h2 := (h.2 j h0 h1).2
    rw [hs, place, if_pos rfl] at h2
    have := cell_inj h2
    subst this
    exact absurd ⟨start, dir, h, j, h0, h1, hs⟩ hc
  · refine ⟨h.1, fun j h0 h1 => ?_⟩
    have := h.2 j h0 h1
    rw [place, if_neg (fun e => hex ⟨j, h0, h1, e⟩)] at this
    exact this

/-! ### Counting stones -/

theorem mem_points (size : Nat × Nat) (p : Pos) : p ∈ points size ↔ Point size p := by
  obtain ⟨x, y⟩ := p
  simp only [points, List.mem_flatMap, List.mem_map, List.mem_range, Point, Prod.mk.injEq]
  constructor
  · rintro ⟨i, hi, j, hj, rfl, rfl⟩; omega
  · rintro ⟨h1, h2, h3, h4⟩
    exact ⟨x.toNat, by omega, y.toNat, by omega, by omega, by omega⟩

theorem iterPos_eq (size : Nat × Nat) : iterPos size = points size := rfl

theorem points_nodup (size : Nat × Nat) : (points size).Nodup := by
  unfold points
  rw [List.nodup_flatMap]
  refine ⟨fun x _ => List.nodup_range.map (fun a b h => by have := congrArg Prod.snd h; simp only at this; omega), ?_⟩
  refine (List.nodup_range (n := size.1)).imp ?_
  intro a b hab x hx hy
  simp only [List.mem_map] at hx hy
  obtain ⟨y, _, rfl⟩ := hx
  obtain ⟨z, _, h⟩ := hy
  have := congrArg Prod.fst h
  simp at this
  omega

theorem points_length (size : Nat × Nat) : (points size).length = size.1 * size.2 := by
  simp [points, List.length_flatMap]

theorem filter_upd (l : List Pos) (hl : l.Nodup) (b : Pos → Cell) (pos : Pos) (v : Cell) (hm : pos ∈ l) :
    (l.filter (fun p => decide (upd b pos v p ≠ .empty))).length + (if b pos ≠ .empty then 1 else 0) =
    (l.filter (fun p => decide (b p ≠ .empty))).length + (if v ≠ .empty then 1 else 0) := by
  induction l with
  | nil => simp at hm
  | cons a l ih =>
    rw [List.nodup_cons] at hl
    by_cases ha : a = pos
    · subst ha
      have hrest : l.filter (fun p => decide (upd b a v p ≠ .empty)) = l.filter (fun p => decide (b p ≠ .empty)) := by
        apply List.filter_congr
        intro p hp
        have : p ≠ a := fun e => hl.1 (e ▸ hp)
        simp [upd, this]
      rw [List.filter_cons, List.filter_cons, hrest]
      have hu : upd b a v a = v := by simp [upd]
      rw [hu]
      by_cases h1 : b a = .empty <;> by_cases h2 : v = .empty <;> simp [h1, h2]
    · have hm' : pos ∈ l := by simpa [Ne.symm ha] using hm
      have := ih hl.2 hm'
      have hu : upd b pos v a = b a := by simp [upd, ha]
      rw [List.filter_cons, List.filter_cons, hu]
      by_cases h1 : b a = .empty <;> simp [h1] at this ⊢ <;> omega

theorem stones_put (size : Nat × Nat) (b : Pos → Cell) (pos : Pos) (v : Cell) (hp : Point size pos) (he : b pos = .empty) (hv : v ≠ .empty) :
    stones size (upd b pos v) = stones size b + 1 := by
  have := filter_upd _ (points_nodup size) b pos v ((mem_points _ _).2 hp)
  simp [he, hv] at this
  simpa [stones] using this

theorem stones_take (size : Nat × Nat) (b : Pos → Cell) (pos : Pos) (hp : Point size pos) (he : b pos ≠ .empty) :
    stones size (upd b pos .empty) + 1 = stones size b := by
  have := filter_upd _ (points_nodup size) b pos .empty ((mem_points _ _).2 hp)
  simp [he] at this
  simpa [stones] using this

theorem stones_kill (size : Nat × Nat) : ∀ (l : List Pos) (b : Pos → Cell), l.Nodup → (∀ p ∈ l, Point size p ∧ b p ≠ .empty) →
    stones size (l.foldl (fun b p => upd b p .empty) b) + l.length = stones size b := by
  intro l
  induction l with
  | nil => intro b _ _; simp
  | cons a l ih =>
    intro b hn h
    rw [List.nodup_cons] at hn
    rw [List.foldl_cons, List.length_cons]
    have h1 := stones_take size b a (h a List.mem_cons_self).1 (h a List.mem_cons_self).2
    have h2 := ih (upd b a .empty) hn.2 (fun p hp => ⟨(h p (List.mem_cons_of_mem _ hp)).1, by
      have : p ≠ a := fun e => hn.1 (e ▸ hp)
      simp only [upd, this, if_false]
      exact (h p (List.mem_cons_of_mem _ hp)).2⟩)
    omega

theorem full_iff (size : Nat × Nat) (b : Pos → Cell) : stones size b = size.1 * size.2 ↔ ∀ p, Point size p → b p ≠ .empty := by
  rw [stones, ← points_length, List.length_filter_eq_length_iff]
  constructor
  · intro h p hp; simpa using h p ((mem_points _ _).2 hp)
  · intro h p hp; simpa using h p ((mem_points _ _).1 hp)

/-! ### Flanked pairs -/

theorem killLine_eq (size : Nat × Nat) (b : Pos → Cell) (c : Color) (pos dir dir' : Pos) (d : Int) (hd : ∀ i, next pos dir i d = shift pos dir' i) :
    killLine size b c pos dir d [1, 2, 3] [] = if FlanksIn size b c pos dir' then [shift pos dir' 1, shift pos dir' 2] else [] := by
  have h13 : ¬ ((1 : Int) = 3) := by decide
  have h23 : ¬ ((2 : Int) = 3) := by decide
  simp only [killLine, hd, FlanksIn, ← inside_iff, h13, h23, false_and, if_false, ne_eq, not_false_eq_true, true_and, not_true_eq_false,
    List.nil_append, List.cons_append]
  cases inside size (shift pos dir' 1) <;> cases inside size (shift pos dir' 2) <;> cases inside size (shift pos dir' 3) <;>
    by_cases h1 : b (shift pos dir' 1) = c.opp.cell <;> by_cases h2 : b (shift pos dir' 2) = c.opp.cell <;>
    by_cases h3 : b (shift pos dir' 3) = c.cell <;> simp [h1, h2, h3]

/-- the stones captured in direction `dir` -/
def capturedIn (size : Nat × Nat) (b : Pos → Cell) (c : Color) (pos dir : Pos) : List Pos :=
  if FlanksIn size b c pos dir then [shift pos dir 1, shift pos dir 2] else []

theorem killsWhich_eq (size : Nat × Nat) (b : Pos → Cell) (c : Color) (pos : Pos) :
    killsWhich size b c pos = allDirs.flatMap (capturedIn size b c pos) := by
  simp only [killsWhich, dirs, allDirs, List.flatMap_cons, List.flatMap_nil, List.append_nil, List.append_assoc]
  rw [killLine_eq size b c pos (0, 1) (0, -1) (-1) (by intro i; simp [next, shift]),
    killLine_eq size b c pos (0, 1) (0, 1) 1 (by intro i; simp [next, shift]),
    killLine_eq size b c pos (1, 0) (-1, 0) (-1) (by intro i; simp [next, shift]),
    killLine_eq size b c pos (1, 0) (1, 0) 1 (by intro i; simp [next, shift]),
    killLine_eq size b c pos (1, 1) (-1, -1) (-1) (by intro i; simp [next, shift]),
    killLine_eq size b c pos (1, 1) (1, 1) 1 (by intro i; simp [next, shift]),
    killLine_eq size b c pos (1, -1) (-1, 1) (-1) (by intro i; simp [next, shift]),
    killLine_eq size b c pos (1, -1) (1, -1) 1 (by intro i; simp [next, shift])]
  rfl

theorem mem_kills (size : Nat × Nat) (b : Pos → Cell) (c : Color) (pos p : Pos) : p ∈ killsWhich size b c pos ↔ Captured size b c pos p := by
  rw [killsWhich_eq, List.mem_flatMap]
  refine exists_congr (fun dir => and_congr_right (fun _ => ?_))
  unfold capturedIn
  split
  · rename_i h; simp [h]
  · rename_i h; simp [h]

theorem kills_length (size : Nat × Nat) (b : Pos → Cell) (c : Color) (pos : Pos) :
    (killsWhich size b c pos).length = 2 * pairs size b c pos := by
  rw [killsWhich_eq, pairs]
  generalize allDirs = l
  induction l with
  | nil => rfl
  | cons a l ih =>
    rw [List.flatMap_cons, List.length_append, ih, List.filter_cons]
    unfold capturedIn
    by_cases h : FlanksIn size b c pos a <;> simp [h] <;> omega

theorem kills_enemy (size : Nat × Nat) (b : Pos → Cell) (c : Color) (pos p : Pos) (h : Captured size b c pos p) : Point size p ∧ b p = c.opp.cell := by
  obtain ⟨dir, _, ⟨h1, h2, h3, h4, _⟩, rfl | rfl⟩ := h
  · exact ⟨h1, h2⟩
  · exact ⟨h3, h4⟩

theorem allDirs_small : ∀ d ∈ allDirs, -1 ≤ d.1 ∧ d.1 ≤ 1 ∧ -1 ≤ d.2 ∧ d.2 ≤ 1 ∧ ¬ (d.1 = 0 ∧ d.2 = 0) := by decide

theorem kills_nodup (size : Nat × Nat) (b : Pos → Cell) (c : Color) (pos : Pos) : (killsWhich size b c pos).Nodup := by
  rw [killsWhich_eq, List.nodup_flatMap]
  constructor
  · intro d hd
    have := allDirs_small d hd
    unfold capturedIn
    split
    · simp [shift]; omega
    · exact List.nodup_nil
  · have hp : allDirs.Pairwise (· ≠ ·) := by decide
    refine hp.imp_of_mem ?_
    intro a d ha hd hne x hx hy
    have h1 := allDirs_small a ha
    have h2 := allDirs_small d hd
    unfold capturedIn at hx hy
    split at hx
    · split at hy
      · obtain ⟨x1, x2⟩ := x
        obtain ⟨a1, a2⟩ := a
        obtain ⟨d1, d2⟩ := d
        simp only [shift, List.mem_cons, List.not_mem_nil, or_false, Prod.mk.injEq] at hx hy
        simp only [ne_eq, Prod.mk.injEq] at hne
        simp only at h1 h2
        omega
      · simp at hy
    · simp at hx

theorem foldl_empty (l : List Pos) : ∀ (b : Pos → Cell) (p : Pos), (l.foldl (fun b p => upd b p .empty) b) p = if p ∈ l then .empty else b p := by
  induction l with
  | nil => intro b p; simp
  | cons a l ih =>
    intro b p
    rw [List.foldl_cons, ih]
    by_cases h : p ∈ l
    · simp [h]
    · by_cases ha : p = a
      · simp [h, ha, upd]
      · simp [h, ha, upd]

end Verif.Gomoku
