import Verif.Model.NearOptimal
import Mathlib.Data.Rat.Floor
import Mathlib.Tactic.Linarith
import Mathlib.Tactic.NormNum
/-
C72: nearest neighbours in the Euclidean hash.
-/
namespace Verif.NearOptimal
set_option linter.unusedSectionVars false
open Verif.Py

variable {K S : Type} [Field K] [LinearOrder K] [IsStrictOrderedRing K] [FloorRing K]

/-- An empty structure. -/
def new (dim : Nat) (side r2 : K) (grid : List (List K)) : Store K S := ⟨dim, side, r2, grid, []⟩

/-- same geometry -/
def Same (m m' : Store K S) : Prop := m'.dim = m.dim ∧ m'.side = m.side ∧ m'.radiusSquared = m.radiusSquared ∧ m'.gridBalls = m.gridBalls

theorem findBall_same (m m' : Store K S) (h : Same m m') (p : List K) : findBall m' p = findBall m p := by
  obtain ⟨h1, h2, h3, h4⟩ := h
  obtain ⟨d, a, b, c, e⟩ := m
  obtain ⟨d', a', b', c', e'⟩ := m'
  dsimp only at h1 h2 h3 h4
  subst h1 h2 h3 h4
  rfl

theorem run_bucket (ops : List (List K × S)) : ∀ (m : Store K S), m.dim ≤ lowerDimensionBound → ∀ i, Same m (run m ops) ∧
    bucket (run m ops) i = bucket m i ++ ops.filter (fun p => findBall m p.1 = i) := by
  induction ops with
  | nil => intro m _ i; exact ⟨⟨rfl, rfl, rfl, rfl⟩, by simp [run]⟩
  | cons o ops ih =>
    intro m hd i
    obtain ⟨p, s⟩ := o
    rw [run, insert, if_neg (by omega)]
    dsimp only
    obtain ⟨⟨h1, h2, h3, h4⟩, h5⟩ := ih { m with balls := dset m.balls (findBall m p) (bucket m (findBall m p) ++ [(p, s)]) } hd i
    refine ⟨⟨h1, h2, h3, h4⟩, ?_⟩
    rw [h5]
    have hs : ∀ q, findBall { m with balls := dset m.balls (findBall m p) (bucket m (findBall m p) ++ [(p, s)]) } q = findBall m q :=
      fun q => findBall_same m _ ⟨rfl, rfl, rfl, rfl⟩ q
    simp only [hs]
    unfold bucket
    simp only [dget_dset]
    by_cases e : findBall m p = i
    · subst e; simp
    · rw [if_neg e, List.filter_cons_of_neg (by simpa using e)]

theorem knn_eq (dim : Nat) (side r2 : K) (grid : List (List K)) (hd : dim ≤ lowerDimensionBound) (ops : List (List K × S)) (q : List K) (k : Nat) :
    ∃ c : List (List K × S), knn (run (new dim side r2 grid) ops) q k = c.take k ∧
      c.Perm (ops.filter (fun p => findBall (new dim side r2 grid : Store K S) p.1 = findBall (new dim side r2 grid : Store K S) q)) ∧
      c.Pairwise (fun x y => sqDist q x.1 ≤ sqDist q y.1) := by
  obtain ⟨h1, h2⟩ := run_bucket ops (new dim side r2 grid : Store K S) hd (findBall (run (new dim side r2 grid) ops) q)
  rw [findBall_same _ _ h1] at h2
  refine ⟨_, rfl, ?_, ?_⟩
  · refine (List.perm_insertionSort _ _).trans ?_
    rw [findBall_same _ _ h1, h2]
    simp [bucket, new, dget]
  · have : Std.Total (fun x y : List K × S => -sqDist q y.1 ≤ -sqDist q x.1) := ⟨fun a b => le_total _ _⟩
    have : IsTrans (List K × S) (fun x y => -sqDist q y.1 ≤ -sqDist q x.1) := ⟨fun a b c h1 h2 => le_trans h2 h1⟩
    refine (List.pairwise_insertionSort (fun x y : List K × S => -sqDist q y.1 ≤ -sqDist q x.1) _).imp ?_
    intro a b hab
    exact neg_le_neg_iff.1 hab

theorem sqDist_self (q : List K) : sqDist q q = 0 := by
  unfold sqDist
  induction q with
  | nil => rfl
  | cons x q ih => rw [List.zip_cons_cons, List.map_cons, List.sum_cons, ih]; simp

theorem sqDist_nonneg : ∀ (a b : List K), 0 ≤ sqDist a b := by
  intro a
  induction a with
  | nil => intro b; simp [sqDist]
  | cons x a ih =>
    intro b
    cases b with
    | nil => simp [sqDist]
    | cons y b =>
      have := ih b
      unfold sqDist at this ⊢
      rw [List.zip_cons_cons, List.map_cons, List.sum_cons]
      exact add_nonneg (mul_self_nonneg _) this

theorem sqDist_eq_zero : ∀ (a b : List K), a.length = b.length → sqDist a b = 0 → a = b := by
  intro a
  induction a with
  | nil => intro b h _; cases b with
    | nil => rfl
    | cons y b => simp at h
  | cons x a ih =>
    intro b h h0
    cases b with
    | nil => simp at h
    | cons y b =>
      have hs : sqDist (x :: a) (y :: b) = (x - y) * (x - y) + sqDist a b := by
        unfold sqDist; rw [List.zip_cons_cons, List.map_cons, List.sum_cons]
      rw [hs] at h0
      have h1 := mul_self_nonneg (x - y)
      have h2 := sqDist_nonneg a b
      have h3 : (x - y) * (x - y) = 0 := by linarith
      have h4 : sqDist a b = 0 := by linarith
      rw [ih b (by simpa using h) h4, sub_eq_zero.1 (mul_self_eq_zero.1 h3)]

end Verif.NearOptimal

namespace Verif.Props

open Verif.NearOptimal
open Verif.DataSet (Err)

section
variable {K S : Type} [Field K] [LinearOrder K] [IsStrictOrderedRing K] [FloorRing K]

/-- C72: after any sequence of insertions into a hash of dimension at most 24, `knn(q, k)` returns at
most `k` inserted pairs by increasing distance; an inserted point of the query's ball is only left out
when `k` points at least as near are returned. -/
theorem C72_knn [DecidableEq S] (dim : Nat) (side r2 : K) (grid : List (List K)) (hd : dim ≤ 24) (ops : List (List K × S)) (q : List K) (k : Nat) :
    (knn (run (new dim side r2 grid) ops) q k).length ≤ k ∧
    (∀ p, (knn (run (new dim side r2 grid) ops) q k).count p ≤ ops.count p) ∧
    (knn (run (new dim side r2 grid) ops) q k).Pairwise (fun x y => sqDist q x.1 ≤ sqDist q y.1) ∧
    (∀ p ∈ ops, findBall (new dim side r2 grid : Store K S) p.1 = findBall (new dim side r2 grid : Store K S) q →
      p ∈ knn (run (new dim side r2 grid) ops) q k ∨
      ((knn (run (new dim side r2 grid) ops) q k).length = k ∧ ∀ r ∈ knn (run (new dim side r2 grid) ops) q k, sqDist q r.1 ≤ sqDist q p.1)) := by
  obtain ⟨c, h1, h2, h3⟩ := knn_eq dim side r2 grid hd ops q k
  rw [h1]
  refine ⟨by rw [List.length_take]; omega, ?_, h3.sublist (List.take_sublist _ _), ?_⟩
  · intro p
    calc (c.take k).count p ≤ c.count p := (List.take_sublist _ _).count_le _
      _ = _ := h2.count_eq _
      _ ≤ _ := List.filter_sublist.count_le _
  · intro p hp hh
    have hc : p ∈ c := h2.mem_iff.2 (List.mem_filter.2 ⟨hp, by simpa using hh⟩)
    rw [← List.take_append_drop k c, List.mem_append] at hc
    rcases hc with hc | hc
    · exact Or.inl hc
    · right
      have hk : k < c.length := by
        by_contra h
        rw [List.drop_eq_nil_of_le (by omega)] at hc
        simp at hc
      refine ⟨by rw [List.length_take]; omega, ?_⟩
      intro r hr
      rw [← List.take_append_drop k c, List.pairwise_append] at h3
      exact h3.2.2 r hr p hc

/-- C72: a stored point is found again: for `k ≥ 1` the first answer to a query at a stored point is a
point at distance zero, i.e. the point itself. -/
theorem C72_identical (dim : Nat) (side r2 : K) (grid : List (List K)) (hd : dim ≤ 24) (ops : List (List K × S)) (hlen : ∀ p ∈ ops, p.1.length = dim)
    (q : List K) (s : S) (hq : (q, s) ∈ ops) (k : Nat) (hk : 0 < k) :
    ∃ s', (knn (run (new dim side r2 grid) ops) q k).head? = some (q, s') := by
  obtain ⟨c, h1, h2, h3⟩ := knn_eq dim side r2 grid hd ops q k
  rw [h1]
  have hc : (q, s) ∈ c := h2.mem_iff.2 (List.mem_filter.2 ⟨hq, by simp⟩)
  cases c with
  | nil => simp at hc
  | cons r c =>
    obtain ⟨r1, r2'⟩ := r
    cases k with
    | zero => omega
    | succ k =>
      refine ⟨r2', ?_⟩
      rw [List.take_succ_cons, List.head?_cons]
      have hr : (r1, r2') ∈ ops := List.mem_of_mem_filter (h2.mem_iff.1 (by simp))
      have : r1 = q := by
        rcases List.mem_cons.1 hc with e | e
        · cases e; rfl
        · rw [List.pairwise_cons] at h3
          have hle := h3.1 (q, s) e
          dsimp only at hle
          rw [sqDist_self] at hle
          have h0 : sqDist q r1 = 0 := le_antisymm hle (sqDist_nonneg _ _)
          exact (sqDist_eq_zero q r1 (by rw [hlen _ hr, ← hlen _ hq]) h0).symm
      rw [this]

/-- C72: points share a bucket exactly by geometry. `findBall` gives the integer cell of the point in the grid of the given side length and
the first of the balls of that cell which contains the point (border included) when both are moved to the cell at the origin; `none` if it is in no ball. -/
theorem C72_ball (m : Store K S) (hs : 0 < m.side) (q : List K) (cell : List Int) (i : Option Nat) :
    findBall m q = (cell, i) ↔ ∃ loc : List K, cell.length = q.length ∧ loc.length = q.length ∧
      (∀ d (h1 : d < q.length) (h2 : d < cell.length) (h3 : d < loc.length), q[d] = m.side * cell[d] + loc[d] ∧ 0 ≤ loc[d] ∧ loc[d] < m.side) ∧
      (match i with
        | none => ∀ b ∈ m.gridBalls, m.radiusSquared < sqDist loc b
        | some n => ∃ h : n < m.gridBalls.length, sqDist loc m.gridBalls[n] ≤ m.radiusSquared ∧
            ∀ k (hk : k < n), m.radiusSquared < sqDist loc (m.gridBalls[k]'(by omega))) := by
  have hloc : ∀ loc : List K, (findLocalBall m loc = i ↔ (match i with
        | none => ∀ b ∈ m.gridBalls, m.radiusSquared < sqDist loc b
        | some n => ∃ h : n < m.gridBalls.length, sqDist loc m.gridBalls[n] ≤ m.radiusSquared ∧
            ∀ k (hk : k < n), m.radiusSquared < sqDist loc (m.gridBalls[k]'(by omega)))) := by
    intro loc
    unfold findLocalBall
    cases i with
    | none => rw [List.findIdx?_eq_none_iff]; simp
    | some n =>
      rw [List.findIdx?_eq_some_iff_getElem]
      simp
  have hfrac : ∀ p : K, 0 ≤ p - m.side * (⌊p / m.side⌋ : K) ∧ p - m.side * (⌊p / m.side⌋ : K) < m.side := by
    intro p
    have h1 := Int.floor_le (p / m.side)
    have h2 := Int.lt_floor_add_one (p / m.side)
    rw [le_div_iff₀ hs] at h1
    rw [div_lt_iff₀ hs] at h2
    constructor <;> nlinarith
  unfold findBall
  rw [Prod.mk.injEq]
  constructor
  · rintro ⟨h1, h2⟩
    refine ⟨(findHypercube m q).2, by rw [← h1]; simp [findHypercube], by simp [findHypercube], ?_, (hloc _).1 h2⟩
    intro d d1 d2 d3
    subst h1
    simp only [findHypercube, List.getElem_map]
    exact ⟨by ring, hfrac _⟩
  · rintro ⟨loc, h1, h2, h3, h4⟩
    have hc : cell = q.map (fun p => ⌊p / m.side⌋) := by
      refine List.ext_getElem (by simp [h1]) fun d d1 d2 => ?_
      have dq : d < q.length := by omega
      obtain ⟨e1, e2, e3⟩ := h3 d dq d1 (by omega)
      rw [List.getElem_map, eq_comm, Int.floor_eq_iff, le_div_iff₀ hs, div_lt_iff₀ hs, e1]
      constructor <;> nlinarith
    have hl : loc = q.map (fun p => p - m.side * (⌊p / m.side⌋ : K)) := by
      refine List.ext_getElem (by simp [h2]) fun d d1 d2 => ?_
      have dq : d < q.length := by omega
      obtain ⟨e1, e2, e3⟩ := h3 d dq (by omega) d1
      have : ⌊q[d] / m.side⌋ = cell[d]'(by omega) := by simp only [hc, List.getElem_map]
      rw [List.getElem_map, this, e1]; ring
    refine ⟨hc.symm, ?_⟩
    have hh : (findHypercube m q).2 = loc := hl.symm
    rw [hh]
    exact (hloc loc).2 h4

omit [IsStrictOrderedRing K] in
/-- C72: with more than 24 dimensions no insertion ever succeeds. -/
theorem C72_negation_high_dimension (m : Store K S) (h : 24 < m.dim) (p : List K) (s : S) : insert m p s = .error .valueError := if_pos h

end

/-- two balls in the plane -/
def NearOptimal.plane : Store ℚ String := new 2 4 1 [[1, 1], [3, 3]]

example : knn (run NearOptimal.plane [([1, 1], "a"), ([1, 3/2], "b"), ([5, 5], "c"), ([1, 5/4], "d")]) [1, 1] 2 = [([1, 1], "a"), ([1, 5/4], "d")] := by
  decide +kernel

end Verif.Props
