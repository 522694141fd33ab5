import Verif.Spec.CaptureGame
import Mathlib.Data.List.Basic
/-
The capture game's bookkeeping represents groups and liberties: invariant of `_setStone` and correctness of `_capture` and `_suicide`.
-/
namespace Verif.Capture
open Verif.DataSet (Err)
open Spec

theorem onBoard_iff (size : Nat) (p : Pos) : onBoard size p = true ↔ Point size p := by
  simp [onBoard, Point]

theorem mem_neighbors (size : Nat) (p q : Pos) (hp : Point size p) : q ∈ neighbors size p ↔ Point size q ∧ Adj p q := by
  obtain ⟨a, b⟩ := p
  obtain ⟨x, y⟩ := q
  simp only [Point] at hp
  simp only [neighbors, Adj, Point, List.mem_append]
  constructor
  · rintro (((h | h) | h) | h) <;> split at h <;> simp at h <;> omega
  · rintro ⟨⟨h1, h2⟩, ⟨h3, h4 | h4⟩ | ⟨h3, h4 | h4⟩⟩
    · refine Or.inl (Or.inl (Or.inl ?_)); rw [if_pos (by omega)]; simp; omega
    · refine Or.inl (Or.inl (Or.inr ?_)); rw [if_pos (by omega)]; simp; omega
    · refine Or.inl (Or.inr ?_); rw [if_pos (by omega)]; simp; omega
    · refine Or.inr ?_; rw [if_pos (by omega)]; simp; omega

theorem adj_symm {p q : Pos} (h : Adj p q) : Adj q p := by
  unfold Adj at *
  omega

theorem adj_irrefl (p : Pos) : ¬ Adj p p := by
  unfold Adj; omega

theorem color_cases (c : Color) (b : Pos → Cell) (p : Pos) (h : Stone b p) : b p = c.cell ∨ b p = c.opp.cell := by
  cases c <;> rcases h with h | h <;> simp [Color.cell, Color.opp, h]

theorem cell_ne_opp (c : Color) : c.cell ≠ c.opp.cell := by cases c <;> simp [Color.cell, Color.opp]
theorem cell_ne_empty (c : Color) : c.cell ≠ .empty := by cases c <;> simp [Color.cell]
theorem stone_of_cell {b : Pos → Cell} {p : Pos} {c : Color} (h : b p = c.cell) : Stone b p := by
  cases c <;> simp [Stone, Color.cell] at * <;> simp [h]
theorem not_stone_empty {b : Pos → Cell} {p : Pos} (h : b p = .empty) : ¬ Stone b p := by simp [Stone, h]

section conn
variable {size : Nat} {b : Pos → Cell}

theorem link_symm {p q : Pos} (h : Link size b p q) : Link size b q p := by
  obtain ⟨h1, h2, h3, h4, h5⟩ := h
  exact ⟨h2, h1, adj_symm h3, by unfold Stone at *; rwa [← h5], h5.symm⟩

theorem conn_symm {p q : Pos} (h : Connected size b p q) : Connected size b q p := by
  induction h with
  | refl => exact Relation.ReflTransGen.refl
  | tail _ h2 ih => exact (Relation.ReflTransGen.single (link_symm h2)).trans ih

theorem conn_trans {p q r : Pos} (h : Connected size b p q) (h' : Connected size b q r) : Connected size b p r :=
  Relation.ReflTransGen.trans h h'

/-- connected points are equal or stones of one colour -/
theorem conn_color {p q : Pos} (h : Connected size b p q) : p = q ∨ (Stone b p ∧ b p = b q ∧ Point size p ∧ Point size q) := by
  induction h with
  | refl => exact Or.inl rfl
  | tail _ h2 ih =>
    obtain ⟨k1, k2, _, k4, k5⟩ := h2
    rcases ih with rfl | ⟨i1, i2, i3, _⟩
    · exact Or.inr ⟨k4, k5, k1, k2⟩
    · exact Or.inr ⟨i1, i2.trans k5, i3, k2⟩

theorem conn_eq_color {p q : Pos} (h : Connected size b p q) : b p = b q := by
  rcases conn_color h with rfl | h
  · rfl
  · exact h.2.1

theorem conn_of_not_stone {p q : Pos} (h : Connected size b p q) (hq : ¬ Stone b q) : p = q := by
  rcases conn_color h with rfl | h
  · rfl
  · exact absurd (by unfold Stone at *; rw [← h.2.1]; exact h.1) hq

/-- the stones that the new stone at `pos` joins -/
def Touched (size : Nat) (b : Pos → Cell) (c : Color) (pos r : Pos) : Prop :=
  r = pos ∨ ∃ n, Point size n ∧ Adj pos n ∧ b n = c.cell ∧ Connected size b n r

variable {c : Color} {pos : Pos}

theorem place_pos : place b c pos pos = c.cell := by simp [place]
theorem place_ne {p : Pos} (h : p ≠ pos) : place b c pos p = b p := by simp [place, h]

theorem link_place (hpos : b pos = .empty) {p q : Pos} (h : Link size b p q) : Link size (place b c pos) p q := by
  obtain ⟨h1, h2, h3, h4, h5⟩ := h
  have hp : p ≠ pos := fun e => not_stone_empty hpos (e ▸ h4)
  have hq : q ≠ pos := fun e => not_stone_empty hpos (by rw [← e]; unfold Stone at *; rwa [← h5])
  exact ⟨h1, h2, h3, by unfold Stone; rwa [place_ne hp], by rw [place_ne hp, place_ne hq, h5]⟩

theorem conn_place (hpos : b pos = .empty) {p q : Pos} (h : Connected size b p q) : Connected size (place b c pos) p q := by
  induction h with
  | refl => exact Relation.ReflTransGen.refl
  | tail _ h2 ih => exact Relation.ReflTransGen.tail ih (link_place hpos h2)

theorem touched_conn (hP : Point size pos) (hpos : b pos = .empty) {r : Pos} (h : Touched size b c pos r) :
    Connected size (place b c pos) pos r := by
  rcases h with rfl | ⟨n, h1, h2, h3, h4⟩
  · exact Relation.ReflTransGen.refl
  · have hn : n ≠ pos := fun e => adj_irrefl pos (e ▸ h2)
    refine conn_trans (Relation.ReflTransGen.single ?_) (conn_place hpos h4)
    refine ⟨hP, h1, h2, stone_of_cell (c := c) place_pos, ?_⟩
    rw [place_pos, place_ne hn, h3]

/-- connectivity after the new stone -/
theorem place_conn (hP : Point size pos) (hpos : b pos = .empty) (p q : Pos) :
    Connected size (place b c pos) p q ↔ Connected size b p q ∨ (Touched size b c pos p ∧ Touched size b c pos q) := by
  constructor
  · intro h
    induction h with
    | refl => exact Or.inl Relation.ReflTransGen.refl
    | @tail q r _ h2 ih =>
      obtain ⟨k1, k2, k3, k4, k5⟩ := h2
      have toPos : q = pos → Touched size b c pos r := by
        rintro rfl
        have hr : r ≠ q := fun e => adj_irrefl q (e ▸ k3)
        rw [place_pos, place_ne hr] at k5
        exact Or.inr ⟨r, k2, k3, k5.symm, Relation.ReflTransGen.refl⟩
      have fromPos : q ≠ pos → r = pos → b q = c.cell ∧ Adj pos q := by
        rintro hq rfl
        rw [place_pos, place_ne hq] at k5
        exact ⟨k5, adj_symm k3⟩
      have both : q ≠ pos → r ≠ pos → Link size b q r := by
        intro hq hr
        rw [place_ne hq, place_ne hr] at k5
        unfold Stone at k4
        rw [place_ne hq] at k4
        exact ⟨k1, k2, k3, k4, k5⟩
      by_cases hr : r = pos
      · by_cases hq : q = pos
        · rw [hq, hr] at k3; exact absurd k3 (adj_irrefl pos)
        · obtain ⟨f1, f2⟩ := fromPos hq hr
          rcases ih with ih | ih
          · exact Or.inr ⟨Or.inr ⟨q, k1, f2, f1, conn_symm ih⟩, Or.inl hr⟩
          · exact Or.inr ⟨ih.1, Or.inl hr⟩
      · by_cases hq : q = pos
        · rcases ih with ih | ih
          · have : p = q := conn_of_not_stone ih (by rw [hq]; exact not_stone_empty hpos)
            exact Or.inr ⟨Or.inl (this.trans hq), toPos hq⟩
          · exact Or.inr ⟨ih.1, toPos hq⟩
        · have hl := both hq hr
          rcases ih with ih | ⟨ih1, ih2⟩
          · exact Or.inl (Relation.ReflTransGen.tail ih hl)
          · refine Or.inr ⟨ih1, ?_⟩
            rcases ih2 with ih2 | ⟨n, h1, h2, h3, h4⟩
            · exact absurd ih2 hq
            · exact Or.inr ⟨n, h1, h2, h3, Relation.ReflTransGen.tail h4 hl⟩
  · rintro (h | ⟨h1, h2⟩)
    · exact conn_place hpos h
    · exact conn_trans (conn_symm (touched_conn hP hpos h1)) (touched_conn hP hpos h2)

theorem touched_of_conn (hpos : b pos = .empty) {p q : Pos} (h : Connected size b p q) (hp : Touched size b c pos p) : Touched size b c pos q := by
  rcases hp with rfl | ⟨n, h1, h2, h3, h4⟩
  · have := conn_of_not_stone (conn_symm h) (not_stone_empty hpos)
    exact Or.inl this
  · exact Or.inr ⟨n, h1, h2, h3, conn_trans h4 h⟩

/-- liberties of the new stone's group -/
theorem place_liberties_touched (hP : Point size pos) (hpos : b pos = .empty) {p : Pos} (hp : Touched size b c pos p) (e : Pos) :
    e ∈ liberties size (place b c pos) p ↔ e ≠ pos ∧ ((Point size e ∧ Adj pos e ∧ b e = .empty) ∨
      ∃ n, Point size n ∧ Adj pos n ∧ b n = c.cell ∧ e ∈ liberties size b n) := by
  constructor
  · rintro ⟨h1, h2, q, h3, h4⟩
    have he : e ≠ pos := by
      rintro rfl; rw [place_pos] at h2; exact cell_ne_empty c h2
    rw [place_ne he] at h2
    have hq : Touched size b c pos q := by
      rcases (place_conn hP hpos p q).1 h3 with h | h
      · exact touched_of_conn hpos h hp
      · exact h.2
    refine ⟨he, ?_⟩
    rcases hq with rfl | ⟨n, k1, k2, k3, k4⟩
    · exact Or.inl ⟨h1, h4, h2⟩
    · exact Or.inr ⟨n, k1, k2, k3, h1, h2, q, k4, h4⟩
  · rintro ⟨he, h | ⟨n, k1, k2, k3, h1, h2, q, h3, h4⟩⟩
    · exact ⟨h.1, by rw [place_ne he]; exact h.2.2, pos, (place_conn hP hpos p pos).2 (Or.inr ⟨hp, Or.inl rfl⟩), h.2.1⟩
    · exact ⟨h1, by rw [place_ne he]; exact h2, q, (place_conn hP hpos p q).2 (Or.inr ⟨hp, Or.inr ⟨n, k1, k2, k3, h3⟩⟩), h4⟩

/-- liberties of the other groups -/
theorem place_liberties_other (hP : Point size pos) (hpos : b pos = .empty) {p : Pos} (hp : ¬ Touched size b c pos p) (e : Pos) :
    e ∈ liberties size (place b c pos) p ↔ e ≠ pos ∧ e ∈ liberties size b p := by
  have hc : ∀ q, Connected size (place b c pos) p q ↔ Connected size b p q := fun q => by
    rw [place_conn hP hpos]
    exact ⟨fun h => h.resolve_right (fun h => hp h.1), Or.inl⟩
  constructor
  · rintro ⟨h1, h2, q, h3, h4⟩
    have he : e ≠ pos := by
      rintro rfl; rw [place_pos] at h2; exact cell_ne_empty c h2
    rw [place_ne he] at h2
    exact ⟨he, h1, h2, q, (hc q).1 h3, h4⟩
  · rintro ⟨he, h1, h2, q, h3, h4⟩
    exact ⟨h1, by rw [place_ne he]; exact h2, q, (hc q).2 h3, h4⟩

theorem liberties_conn {p q : Pos} (h : Connected size b p q) : liberties size b p = liberties size b q := by
  ext e
  constructor
  · rintro ⟨h1, h2, r, h3, h4⟩; exact ⟨h1, h2, r, conn_trans (conn_symm h) h3, h4⟩
  · rintro ⟨h1, h2, r, h3, h4⟩; exact ⟨h1, h2, r, conn_trans h h3, h4⟩

theorem enemy_not_touched (hpos : b pos = .empty) {n : Pos} (hn : b n = c.opp.cell) : ¬ Touched size b c pos n := by
  rintro (rfl | ⟨m, _, _, h3, h4⟩)
  · rw [hpos] at hn; exact cell_ne_empty _ hn.symm
  · rw [← conn_eq_color h4, h3] at hn; exact cell_ne_opp c hn

end conn

/-- The bookkeeping of an undecided game represents the board. -/
structure Inv (g : Game) : Prop where
  groups_iff : ∀ p, (g.groups p).isSome ↔ Point g.size p ∧ Stone g.b p
  same : ∀ (p : Pos) (k : Nat), g.groups p = some k → ∀ q, g.groups q = some k ↔ Connected g.size g.b p q
  libs : ∀ (p : Pos) (k : Nat), g.groups p = some k → ∃ L, g.liberties k = some L ∧ ∀ e, e ∈ L ↔ e ∈ Spec.liberties g.size g.b p
  ids : ∀ (p : Pos) (k : Nat), g.groups p = some k → ∃ q, Point g.size q ∧ k = g.size * q.1 + q.2 ∧ g.groups q = some k
  clean : ∀ p, g.b p = .empty ∨ (Point g.size p ∧ Stone g.b p)
  alive : ∀ p, Point g.size p → Stone g.b p → (Spec.liberties g.size g.b p).Nonempty

theorem inv_new (size : Nat) (s : Bool) : Inv (newGame size s) where
  groups_iff := by intro p; simp [newGame, Stone]
  same := by intro p k h; simp [newGame] at h
  libs := by intro p k h; simp [newGame] at h
  ids := by intro p k h; simp [newGame] at h
  clean := by intro p; simp [newGame]
  alive := by intro p _ h; simp [newGame, Stone] at h

namespace Inv
variable {g : Game} (hI : Inv g)
include hI

theorem stone_group {p : Pos} (h1 : Point g.size p) (h2 : Stone g.b p) : ∃ k, g.groups p = some k :=
  Option.isSome_iff_exists.1 ((hI.groups_iff p).2 ⟨h1, h2⟩)

theorem group_stone {p : Pos} {k : Nat} (h : g.groups p = some k) : Point g.size p ∧ Stone g.b p :=
  (hI.groups_iff p).1 (by rw [h]; rfl)

theorem libertiesAt_ok {p : Pos} (h1 : Point g.size p) (h2 : Stone g.b p) :
    ∃ L, libertiesAt g p = .ok L ∧ ∀ e, e ∈ L ↔ e ∈ Spec.liberties g.size g.b p := by
  obtain ⟨k, hk⟩ := hI.stone_group h1 h2
  obtain ⟨L, hL, h⟩ := hI.libs p k hk
  exact ⟨L, by simp [libertiesAt, hk, hL], h⟩

theorem fresh {pos : Pos} (hP : Point g.size pos) (hpos : g.b pos = .empty) (p : Pos) : g.groups p ≠ some (g.size * pos.1 + pos.2) := by
  intro h
  obtain ⟨q, hq, hk, hg⟩ := hI.ids p _ h
  have hqe : q = pos := by
    obtain ⟨q1, q2⟩ := q
    obtain ⟨p1, p2⟩ := pos
    simp only [Point] at hq hP hk
    have hs : 0 < g.size := by omega
    have e1 : (g.size * q1 + q2) / g.size = q1 := by rw [Nat.mul_add_div hs, Nat.div_eq_of_lt hq.2]; omega
    have e2 : (g.size * p1 + p2) / g.size = p1 := by rw [Nat.mul_add_div hs, Nat.div_eq_of_lt hP.2]; omega
    have : p1 = q1 := by rw [← e1, ← e2, hk]
    subst this
    have : p2 = q2 := by omega
    rw [this]
  rw [hqe] at hg
  exact not_stone_empty hpos (hI.group_stone hg).2

end Inv

/-! ### Judging a move -/

section judge
variable {g : Game} (hI : Inv g) {c : Color} {pos : Pos}
include hI

omit hI in
theorem pos_mem_liberties {n : Pos} (hP : Point g.size pos) (hpos : g.b pos = .empty) (hadj : Adj pos n) : pos ∈ Spec.liberties g.size g.b n :=
  ⟨hP, hpos, n, Relation.ReflTransGen.refl, adj_symm hadj⟩

omit hI in
theorem card_one_iff {L : Finset Pos} {S : Set Pos} (h : ∀ e, e ∈ L ↔ e ∈ S) (hp : pos ∈ S) : L.card = 1 ↔ ∀ e, ¬ (e ≠ pos ∧ e ∈ S) := by
  rw [Finset.card_eq_one]
  constructor
  · rintro ⟨a, rfl⟩ e ⟨h1, h2⟩
    have h3 := (h pos).2 hp
    have h4 := (h e).2 h2
    rw [Finset.mem_singleton] at h3 h4
    exact h1 (h4.trans h3.symm)
  · intro hall
    refine ⟨pos, ?_⟩
    ext e
    rw [Finset.mem_singleton, h e]
    constructor
    · intro he
      by_contra hne
      exact hall e ⟨hne, he⟩
    · rintro rfl; exact hp

theorem captureLoop_spec (hP : Point g.size pos) (hpos : g.b pos = .empty) : ∀ ns : List Pos, (∀ n ∈ ns, n ∈ neighbors g.size pos) →
    ∃ r, captureLoop g c ns = .ok r ∧ (r = true ↔ ∃ n ∈ ns, g.b n = c.opp.cell ∧ Spec.liberties g.size (place g.b c pos) n = ∅) := by
  intro ns
  induction ns with
  | nil => intro _; exact ⟨false, rfl, by simp⟩
  | cons n ns ih =>
    intro hns
    obtain ⟨r, hr, hiff⟩ := ih (fun m hm => hns m (List.mem_cons_of_mem _ hm))
    obtain ⟨hnP, hadj⟩ := (mem_neighbors _ _ _ hP).1 (hns n List.mem_cons_self)
    rw [captureLoop]
    by_cases hn : g.b n = c.opp.cell
    · rw [if_pos hn]
      obtain ⟨L, hL, hmem⟩ := hI.libertiesAt_ok hnP (stone_of_cell hn)
      rw [hL]
      simp only
      have hone : L.card = 1 ↔ Spec.liberties g.size (place g.b c pos) n = ∅ := by
        rw [card_one_iff hmem (pos_mem_liberties hP hpos hadj), Set.eq_empty_iff_forall_notMem]
        refine forall_congr' (fun e => ?_)
        rw [place_liberties_other hP hpos (enemy_not_touched hpos hn)]
      by_cases h1 : L.card = 1
      · rw [if_pos h1]
        exact ⟨true, rfl, by simp only [true_iff]; exact ⟨n, List.mem_cons_self, hn, hone.1 h1⟩⟩
      · rw [if_neg h1]
        refine ⟨r, hr, hiff.trans ?_⟩
        constructor
        · rintro ⟨m, hm, h⟩; exact ⟨m, List.mem_cons_of_mem _ hm, h⟩
        · rintro ⟨m, hm, h2, h3⟩
          rcases List.mem_cons.1 hm with rfl | hm
          · exact absurd (hone.2 h3) h1
          · exact ⟨m, hm, h2, h3⟩
    · rw [if_neg hn]
      refine ⟨r, hr, hiff.trans ?_⟩
      constructor
      · rintro ⟨m, hm, h⟩; exact ⟨m, List.mem_cons_of_mem _ hm, h⟩
      · rintro ⟨m, hm, h2, h3⟩
        rcases List.mem_cons.1 hm with rfl | hm
        · exact absurd h2 hn
        · exact ⟨m, hm, h2, h3⟩

theorem capture_spec (hP : Point g.size pos) (hpos : g.b pos = .empty) :
    ∃ r, capture g c pos = .ok r ∧ (r = true ↔ Captures g.size g.b c pos) := by
  obtain ⟨r, hr, h⟩ := captureLoop_spec hI (c := c) hP hpos (neighbors g.size pos) (fun _ h => h)
  refine ⟨r, hr, h.trans ?_⟩
  constructor
  · rintro ⟨n, hn, h1, h2⟩
    obtain ⟨a, b⟩ := (mem_neighbors _ _ _ hP).1 hn
    exact ⟨n, a, b, h1, h2⟩
  · rintro ⟨n, a, b, h1, h2⟩
    exact ⟨n, (mem_neighbors _ _ _ hP).2 ⟨a, b⟩, h1, h2⟩

theorem friendLoop_spec (hP : Point g.size pos) (hpos : g.b pos = .empty) : ∀ ns : List Pos, (∀ n ∈ ns, n ∈ neighbors g.size pos) →
    ∃ r, friendLoop g c ns = .ok r ∧ (r = true ↔ ∃ n ∈ ns, g.b n = c.cell ∧ ∃ e, e ≠ pos ∧ e ∈ Spec.liberties g.size g.b n) := by
  intro ns
  induction ns with
  | nil => intro _; exact ⟨false, rfl, by simp⟩
  | cons n ns ih =>
    intro hns
    obtain ⟨r, hr, hiff⟩ := ih (fun m hm => hns m (List.mem_cons_of_mem _ hm))
    obtain ⟨hnP, hadj⟩ := (mem_neighbors _ _ _ hP).1 (hns n List.mem_cons_self)
    rw [friendLoop]
    by_cases hn : g.b n = c.cell
    · rw [if_pos hn]
      obtain ⟨L, hL, hmem⟩ := hI.libertiesAt_ok hnP (stone_of_cell hn)
      rw [hL]
      simp only
      have hp := pos_mem_liberties hP hpos hadj
      have hpos1 : 0 < L.card := Finset.card_pos.2 ⟨pos, (hmem pos).2 hp⟩
      have hone : L.card > 1 ↔ ∃ e, e ≠ pos ∧ e ∈ Spec.liberties g.size g.b n := by
        have := card_one_iff hmem hp
        constructor
        · intro h
          by_contra hno
          push Not at hno
          have := this.2 (fun e he => hno e he.1 he.2)
          omega
        · rintro ⟨e, he⟩
          have : L.card ≠ 1 := fun h => this.1 h e he
          omega
      by_cases h1 : L.card > 1
      · rw [if_pos h1]
        exact ⟨true, rfl, by simp only [true_iff]; exact ⟨n, List.mem_cons_self, hn, hone.1 h1⟩⟩
      · rw [if_neg h1]
        refine ⟨r, hr, hiff.trans ?_⟩
        constructor
        · rintro ⟨m, hm, h⟩; exact ⟨m, List.mem_cons_of_mem _ hm, h⟩
        · rintro ⟨m, hm, h2, h3⟩
          rcases List.mem_cons.1 hm with rfl | hm
          · exact absurd (hone.2 h3) h1
          · exact ⟨m, hm, h2, h3⟩
    · rw [if_neg hn]
      refine ⟨r, hr, hiff.trans ?_⟩
      constructor
      · rintro ⟨m, hm, h⟩; exact ⟨m, List.mem_cons_of_mem _ hm, h⟩
      · rintro ⟨m, hm, h2, h3⟩
        rcases List.mem_cons.1 hm with rfl | hm
        · exact absurd h2 hn
        · exact ⟨m, hm, h2, h3⟩

theorem suicide_spec (hP : Point g.size pos) (hpos : g.b pos = .empty) :
    ∃ r, suicide g c pos = .ok r ∧ (r = true ↔ Suicide g.size g.b c pos) := by
  obtain ⟨rc, hrc, hc⟩ := capture_spec hI (c := c) hP hpos
  obtain ⟨rf, hrf, hf⟩ := friendLoop_spec hI (c := c) hP hpos (neighbors g.size pos) (fun _ h => h)
  have hown : Spec.liberties g.size (place g.b c pos) pos = ∅ ↔
      (¬ ∃ n ∈ neighbors g.size pos, g.b n = .empty) ∧ rf ≠ true := by
    rw [ne_eq, hf, Set.eq_empty_iff_forall_notMem]
    constructor
    · intro h
      constructor
      · rintro ⟨n, hn, he⟩
        obtain ⟨a, b⟩ := (mem_neighbors _ _ _ hP).1 hn
        refine h n ((place_liberties_touched hP hpos (Or.inl rfl) n).2 ⟨?_, Or.inl ⟨a, b, he⟩⟩)
        rintro rfl; exact adj_irrefl _ b
      · rintro ⟨n, hn, h1, e, h2, h3⟩
        obtain ⟨a, b⟩ := (mem_neighbors _ _ _ hP).1 hn
        exact h e ((place_liberties_touched hP hpos (Or.inl rfl) e).2 ⟨h2, Or.inr ⟨n, a, b, h1, h3⟩⟩)
    · rintro ⟨h1, h2⟩ e he
      obtain ⟨k1, k2 | ⟨n, a, b, k3, k4⟩⟩ := (place_liberties_touched hP hpos (Or.inl rfl) e).1 he
      · exact h1 ⟨e, (mem_neighbors _ _ _ hP).2 ⟨k2.1, k2.2.1⟩, k2.2.2⟩
      · exact h2 ⟨n, (mem_neighbors _ _ _ hP).2 ⟨a, b⟩, k3, e, k1, k4⟩
  unfold suicide
  have hany : (neighbors g.size pos).any (fun n => decide (g.b n = .empty)) = true ↔ ∃ n ∈ neighbors g.size pos, g.b n = .empty := by
    simp [List.any_eq_true]
  unfold Suicide
  rw [hown, ← hc]
  by_cases h1 : (neighbors g.size pos).any (fun n => decide (g.b n = .empty)) = true
  · rw [if_pos h1]
    refine ⟨false, rfl, ?_⟩
    simp only [Bool.false_eq_true, false_iff]
    intro h
    exact h.1.1 (hany.1 h1)
  · rw [if_neg h1, hrf]
    have h1' : ¬ ∃ n ∈ neighbors g.size pos, g.b n = .empty := fun h => h1 (hany.2 h)
    cases rf with
    | true => exact ⟨false, rfl, by simp⟩
    | false =>
      simp only
      rw [hrc]
      cases rc with
      | true => exact ⟨false, rfl, by simp⟩
      | false => exact ⟨true, rfl, by simp only [true_iff]; exact ⟨⟨h1', by simp⟩, by simp⟩⟩

end judge

/-! ### Setting a stone -/

section setStone
variable {g : Game} {c : Color} {pos : Pos}

/-- some processed friendly neighbour has group `k` (before the move) -/
def touchedId (g : Game) (fs : List Pos) (k : Nat) : Prop := ∃ f ∈ fs, g.groups f = some k

/-- state of the loop of `_setStone` after the friendly neighbours `fs` and the enemies `es` -/
structure LoopInv (g : Game) (pos : Pos) (freen : Finset Pos) (fs es : List Pos) (G : Nat) (s : Loop) : Prop where
  merge : s.merge = !fs.isEmpty
  own : fs = [] → G = g.size * pos.1 + pos.2
  touched : fs ≠ [] → touchedId g fs G
  gpos : s.groups pos = some G
  gsome : ∀ p, p ≠ pos → ∀ k, g.groups p = some k → (touchedId g fs k → s.groups p = some G) ∧ (¬ touchedId g fs k → s.groups p = some k)
  gnone : ∀ p, p ≠ pos → g.groups p = none → s.groups p = none
  libG : ∃ L, s.liberties G = some L ∧ ∀ e, e ∈ L ↔ e ≠ pos ∧ (e ∈ freen ∨ ∃ f ∈ fs, e ∈ Spec.liberties g.size g.b f)
  libO : ∀ (p : Pos) (k : Nat), g.groups p = some k → ¬ touchedId g fs k →
    ∃ L, s.liberties k = some L ∧ ∀ e, e ∈ L ↔ e ∈ Spec.liberties g.size g.b p ∧ ¬ (e = pos ∧ touchedId g es k)

theorem upd_same {α β : Type} [DecidableEq α] (f : α → β) (k : α) (v : β) : upd f k v k = v := by simp [upd]
theorem upd_other {α β : Type} [DecidableEq α] (f : α → β) (k x : α) (v : β) (h : x ≠ k) : upd f k v x = f x := by simp [upd, h]

theorem touchedId_append (g : Game) (fs : List Pos) (n : Pos) (k : Nat) :
    touchedId g (fs ++ [n]) k ↔ touchedId g fs k ∨ g.groups n = some k := by
  unfold touchedId
  constructor
  · rintro ⟨f, hf, h⟩
    rcases List.mem_append.1 hf with hf | hf
    · exact Or.inl ⟨f, hf, h⟩
    · simp at hf; subst hf; exact Or.inr h
  · rintro (⟨f, hf, h⟩ | h)
    · exact ⟨f, List.mem_append.2 (Or.inl hf), h⟩
    · exact ⟨n, by simp, h⟩

variable (hI : Inv g) (hP : Point g.size pos) (hpos : g.b pos = .empty) {freen : Finset Pos}
include hI hP hpos

theorem not_touched_G {fs es : List Pos} {G : Nat} {s : Loop} (h : LoopInv g pos freen fs es G s) {p : Pos} {k : Nat} (hp : g.groups p = some k)
    (hk : ¬ touchedId g fs k) : k ≠ G := by
  rintro rfl
  by_cases hf : fs = []
  · have := h.own hf
    subst this
    exact hI.fresh hP hpos p hp
  · exact hk (h.touched hf)

theorem enemy_untouched {fs : List Pos} (hfs : ∀ f ∈ fs, g.b f = c.cell) {n : Pos} {k : Nat} (hn : g.b n = c.opp.cell) (hk : g.groups n = some k) :
    ¬ touchedId g fs k := by
  rintro ⟨f, hf, hfk⟩
  have := conn_eq_color ((hI.same f k hfk n).1 hk)
  rw [hfs f hf, hn] at this
  exact cell_ne_opp c this

theorem enemyStep_inv {fs es : List Pos} {G : Nat} {s : Loop} (h : LoopInv g pos freen fs es G s) (hfs : ∀ f ∈ fs, g.b f = c.cell)
    {n : Pos} (hnP : Point g.size n) (hne : n ≠ pos) (hn : g.b n = c.opp.cell) :
    ∃ s', enemyStep pos n s = .ok s' ∧ LoopInv g pos freen fs (es ++ [n]) G s' := by
  obtain ⟨k, hk⟩ := hI.stone_group hnP (stone_of_cell hn)
  have hnt := enemy_untouched hI hP hpos hfs hn hk
  obtain ⟨L, hL, hmem⟩ := h.libO n k hk hnt
  have hsk := (h.gsome n hne k hk).2 hnt
  have hkG := not_touched_G hI hP hpos h hk hnt
  refine ⟨_, by rw [enemyStep, hsk]; simp only [hL]; rfl, ?_⟩
  constructor
  · exact h.merge
  · exact h.own
  · exact h.touched
  · exact h.gpos
  · exact h.gsome
  · exact h.gnone
  · simp only
    rw [upd_other _ _ _ _ (Ne.symm hkG)]
    exact h.libG
  · intro p k' hp hk'
    simp only
    by_cases he : k' = k
    · subst he
      refine ⟨_, upd_same _ _ _, fun e => ?_⟩
      rw [Finset.mem_erase, hmem e, liberties_conn ((hI.same n k' hk p).1 hp), touchedId_append]
      constructor
      · rintro ⟨h1, h2, _⟩; exact ⟨h2, fun h => h1 h.1⟩
      · rintro ⟨h1, h2⟩
        exact ⟨fun h => h2 ⟨h, Or.inr hk⟩, h1, fun h => h2 ⟨h.1, Or.inl h.2⟩⟩
    · rw [upd_other _ _ _ _ he]
      obtain ⟨L', hL', hmem'⟩ := h.libO p k' hp hk'
      refine ⟨L', hL', fun e => ?_⟩
      rw [hmem' e, touchedId_append]
      have : g.groups n ≠ some k' := by rw [hk]; simpa using Ne.symm he
      simp [this]

theorem connectStep_inv {es : List Pos} {G : Nat} {s : Loop} (h : LoopInv g pos freen [] es G s) (hfr : pos ∉ freen)
    {n : Pos} (hnP : Point g.size n) (hne : n ≠ pos) (hn : g.b n = c.cell) :
    ∃ s' G', connectStep freen pos n s = .ok s' ∧ LoopInv g pos freen [n] es G' s' := by
  obtain ⟨k, hk⟩ := hI.stone_group hnP (stone_of_cell hn)
  have hnt : ∀ k, ¬ touchedId g [] k := by simp [touchedId]
  have hown := h.own rfl
  obtain ⟨L, hL, hmem⟩ := h.libO n k hk (hnt k)
  have hsk := (h.gsome n hne k hk).2 (hnt k)
  have hkG := not_touched_G hI hP hpos h hk (hnt k)
  obtain ⟨LG, hLG, hmemG⟩ := h.libG
  have ht : ∀ k', touchedId g [n] k' ↔ k' = k := by
    intro k'; simp [touchedId, hk, eq_comm]
  refine ⟨_, k, by rw [connectStep, h.gpos, hsk]; simp only [hLG]; rw [upd_other _ _ _ _ hkG]; simp only [hL]; rfl, ?_⟩
  constructor
  · rfl
  · intro h; simp at h
  · intro _; exact (ht k).2 rfl
  · exact upd_same _ _ _
  · intro p hp k' hk'
    simp only
    rw [upd_other _ _ _ _ hp, (h.gsome p hp k' hk').2 (hnt k')]
    exact ⟨fun h => by rw [(ht k').1 h], fun _ => rfl⟩
  · intro p hp hk'
    simp only
    rw [upd_other _ _ _ _ hp]; exact h.gnone p hp hk'
  · refine ⟨_, upd_same _ _ _, fun e => ?_⟩
    rw [Finset.mem_erase, Finset.mem_union, hmem e]
    constructor
    · rintro ⟨h1, h2 | h2⟩
      · exact ⟨h1, Or.inr ⟨n, by simp, h2.1⟩⟩
      · exact ⟨h1, Or.inl h2⟩
    · rintro ⟨h1, h2 | ⟨f, hf, h2⟩⟩
      · exact ⟨h1, Or.inr h2⟩
      · simp at hf; subst hf; exact ⟨h1, Or.inl ⟨h2, fun h => h1 h.1⟩⟩
  · intro p k' hp hk'
    have hkk : k' ≠ k := fun e => hk' ((ht k').2 e)
    have hkG' := not_touched_G hI hP hpos h hp (hnt k')
    simp only
    rw [upd_other _ _ _ _ hkk, upd_other _ _ _ _ hkG']
    exact h.libO p k' hp (hnt k')

theorem mergeStep_inv {fs es : List Pos} {G : Nat} {s : Loop} (h : LoopInv g pos freen fs es G s) (hf : fs ≠ [])
    {n : Pos} (hnP : Point g.size n) (hne : n ≠ pos) (hn : g.b n = c.cell) :
    ∃ s', mergeStep pos n s = .ok s' ∧ LoopInv g pos freen (fs ++ [n]) es G s' := by
  obtain ⟨k, hk⟩ := hI.stone_group hnP (stone_of_cell hn)
  obtain ⟨LG, hLG, hmemG⟩ := h.libG
  by_cases ht : touchedId g fs k
  · have hsk := (h.gsome n hne k hk).1 ht
    have ht' : ∀ k', touchedId g (fs ++ [n]) k' ↔ touchedId g fs k' := by
      intro k'
      rw [touchedId_append]
      constructor
      · rintro (h | h)
        · exact h
        · rw [hk] at h; cases h; exact ht
      · exact Or.inl
    refine ⟨_, by rw [mergeStep, h.gpos, hsk]; simp only [if_true, hLG]; rfl, ?_⟩
    constructor
    · rw [h.merge]; cases fs with
      | nil => exact absurd rfl hf
      | cons => simp
    · intro h; simp at h
    · intro _; exact (ht' G).2 (h.touched hf)
    · exact h.gpos
    · intro p hp k' hk'
      rw [ht']; exact h.gsome p hp k' hk'
    · exact h.gnone
    · refine ⟨_, upd_same _ _ _, fun e => ?_⟩
      rw [Finset.mem_erase, hmemG e]
      obtain ⟨f, hfm, hfk⟩ := ht
      have hlib := liberties_conn ((hI.same f k hfk n).1 hk)
      constructor
      · rintro ⟨_, h1, h2 | ⟨f', hf', h2⟩⟩
        · exact ⟨h1, Or.inl h2⟩
        · exact ⟨h1, Or.inr ⟨f', List.mem_append.2 (Or.inl hf'), h2⟩⟩
      · rintro ⟨h1, h2 | ⟨f', hf', h2⟩⟩
        · exact ⟨h1, h1, Or.inl h2⟩
        · rcases List.mem_append.1 hf' with hf' | hf'
          · exact ⟨h1, h1, Or.inr ⟨f', hf', h2⟩⟩
          · simp at hf'; subst hf'; exact ⟨h1, h1, Or.inr ⟨f, hfm, by rw [hlib]; exact h2⟩⟩
    · intro p k' hp hk'
      rw [ht'] at hk'
      have hkG' := not_touched_G hI hP hpos h hp hk'
      simp only
      rw [upd_other _ _ _ _ hkG']
      exact h.libO p k' hp hk'
  · have hsk := (h.gsome n hne k hk).2 ht
    have hkG := not_touched_G hI hP hpos h hk ht
    obtain ⟨L, hL, hmem⟩ := h.libO n k hk ht
    refine ⟨_, by rw [mergeStep, h.gpos, hsk]; simp only; rw [if_neg (Ne.symm hkG)]; simp only [hLG, hL]; rfl, ?_⟩
    constructor
    · simp only; rw [h.merge]; cases fs with
      | nil => exact absurd rfl hf
      | cons => simp
    · intro h; simp at h
    · intro _; exact (touchedId_append _ _ _ _).2 (Or.inl (h.touched hf))
    · simp only; rw [h.gpos, if_neg (by simpa using Ne.symm hkG)]
    · intro p hp k' hk'
      simp only
      rw [touchedId_append]
      by_cases ht' : touchedId g fs k'
      · rw [(h.gsome p hp k' hk').1 ht', if_neg (by simpa using Ne.symm hkG)]
        exact ⟨fun _ => rfl, fun h => absurd (Or.inl ht') h⟩
      · rw [(h.gsome p hp k' hk').2 ht']
        by_cases hkk : k' = k
        · subst hkk
          simp [hk]
        · rw [if_neg (by simpa using hkk)]
          refine ⟨fun h => ?_, fun _ => rfl⟩
          rcases h with h | h
          · exact absurd h ht'
          · rw [hk] at h; simp at h; exact absurd h.symm hkk
    · intro p hp hk'
      simp only
      rw [h.gnone p hp hk', if_neg (by simp)]
    · simp only
      rw [upd_other _ _ _ _ (Ne.symm hkG)]
      refine ⟨_, upd_same _ _ _, fun e => ?_⟩
      rw [Finset.mem_erase, Finset.mem_union, hmemG e, hmem e]
      constructor
      · rintro ⟨h1, ⟨_, h2 | ⟨f', hf', h2⟩⟩ | h2⟩
        · exact ⟨h1, Or.inl h2⟩
        · exact ⟨h1, Or.inr ⟨f', List.mem_append.2 (Or.inl hf'), h2⟩⟩
        · exact ⟨h1, Or.inr ⟨n, by simp, h2.1⟩⟩
      · rintro ⟨h1, h2 | ⟨f', hf', h2⟩⟩
        · exact ⟨h1, Or.inl ⟨h1, Or.inl h2⟩⟩
        · rcases List.mem_append.1 hf' with hf' | hf'
          · exact ⟨h1, Or.inl ⟨h1, Or.inr ⟨f', hf', h2⟩⟩⟩
          · simp at hf'; subst hf'; exact ⟨h1, Or.inr ⟨h2, fun h => h1 h.1⟩⟩
    · intro p k' hp hk'
      rw [touchedId_append, not_or] at hk'
      have hkG' := not_touched_G hI hP hpos h hp hk'.1
      have hkk : k' ≠ k := by rintro rfl; exact hk'.2 hk
      simp only
      rw [upd_other _ _ _ _ hkk, upd_other _ _ _ _ hkG']
      exact h.libO p k' hp hk'.1

theorem stoneLoop_inv (hfr : pos ∉ freen) : ∀ (ns fs es : List Pos) (G : Nat) (s : Loop), (∀ n ∈ ns, n ∈ neighbors g.size pos) →
    (∀ f ∈ fs, g.b f = c.cell) → LoopInv g pos freen fs es G s →
    ∃ s' G', stoneLoop (place g.b c pos) c freen pos ns s = .ok s' ∧
      LoopInv g pos freen (fs ++ ns.filter (fun n => decide (g.b n = c.cell))) (es ++ ns.filter (fun n => decide (g.b n = c.opp.cell))) G' s' := by
  intro ns
  induction ns with
  | nil => intro fs es G s _ _ h; exact ⟨s, G, rfl, by simpa using h⟩
  | cons n ns ih =>
    intro fs es G s hns hfs h
    obtain ⟨hnP, hadj⟩ := (mem_neighbors _ _ _ hP).1 (hns n List.mem_cons_self)
    have hne : n ≠ pos := fun e => adj_irrefl pos (e ▸ hadj)
    have hns' : ∀ m ∈ ns, m ∈ neighbors g.size pos := fun m hm => hns m (List.mem_cons_of_mem _ hm)
    rw [stoneLoop]
    simp only [place_ne hne]
    by_cases h1 : g.b n = c.opp.cell
    · obtain ⟨s', hs', h'⟩ := enemyStep_inv hI hP hpos h hfs hnP hne h1
      have hnc : ¬ g.b n = c.cell := by rw [h1]; exact (cell_ne_opp c).symm
      rw [if_pos h1, hs']
      simp only
      obtain ⟨s'', G'', hs'', h''⟩ := ih fs (es ++ [n]) G s' hns' hfs h'
      refine ⟨s'', G'', hs'', ?_⟩
      rw [List.filter_cons_of_neg (by simpa using hnc), List.filter_cons_of_pos (by simpa using h1)]
      simpa using h''
    · rw [if_neg h1]
      rw [List.filter_cons_of_neg (p := fun n => decide (g.b n = c.opp.cell)) (by simpa using h1)]
      by_cases h2 : g.b n = c.cell
      · rw [if_pos h2]
        have hfs' : ∀ f ∈ fs ++ [n], g.b f = c.cell := by
          intro f hf
          rcases List.mem_append.1 hf with hf | hf
          · exact hfs f hf
          · simp at hf; subst hf; exact h2
        rw [List.filter_cons_of_pos (by simpa using h2)]
        by_cases hf : fs = []
        · subst hf
          rw [h.merge]
          obtain ⟨s', G', hs', h'⟩ := connectStep_inv hI hP hpos h hfr hnP hne h2
          simp only [List.isEmpty_nil, Bool.not_true, Bool.false_eq_true, if_false]
          rw [hs']
          simp only
          obtain ⟨s'', G'', hs'', h''⟩ := ih [n] es G' s' hns' hfs' h'
          exact ⟨s'', G'', hs'', by simpa using h''⟩
        · obtain ⟨s', hs', h'⟩ := mergeStep_inv hI hP hpos h hf hnP hne h2
          rw [h.merge]
          have : (!fs.isEmpty) = true := by cases fs <;> simp_all
          rw [if_pos this, hs']
          simp only
          obtain ⟨s'', G'', hs'', h''⟩ := ih (fs ++ [n]) es G s' hns' hfs' h'
          exact ⟨s'', G'', hs'', by simpa using h''⟩
      · rw [if_neg h2, List.filter_cons_of_neg (by simpa using h2)]
        simp only
        exact ih fs es G s hns' hfs h

/-- the neighbours of `pos` with a given value -/
theorem mem_friends (n : Pos) (v : Cell) : n ∈ (neighbors g.size pos).filter (fun n => decide (g.b n = v)) ↔ Point g.size n ∧ Adj pos n ∧ g.b n = v := by
  rw [List.mem_filter, mem_neighbors _ _ _ hP]
  simp [and_assoc]

theorem touchedId_iff {p : Pos} {k : Nat} (hp : g.groups p = some k) :
    touchedId g ((neighbors g.size pos).filter (fun n => decide (g.b n = c.cell))) k ↔ Touched g.size g.b c pos p := by
  constructor
  · rintro ⟨f, hf, hfk⟩
    obtain ⟨h1, h2, h3⟩ := (mem_friends hI hP hpos f c.cell).1 hf
    exact Or.inr ⟨f, h1, h2, h3, (hI.same f k hfk p).1 hp⟩
  · rintro (rfl | ⟨n, h1, h2, h3, h4⟩)
    · exact absurd (hI.group_stone hp).2 (not_stone_empty hpos)
    · obtain ⟨k', hk'⟩ := hI.stone_group h1 (stone_of_cell h3)
      have := (hI.same n k' hk' p).2 h4
      rw [hp] at this
      cases this
      exact ⟨n, (mem_friends hI hP hpos n c.cell).2 ⟨h1, h2, h3⟩, hk'⟩

theorem setStone_inv (halive : (Spec.liberties g.size (place g.b c pos) pos).Nonempty) (hcap : ¬ Captures g.size g.b c pos) :
    ∃ g', setStone g c pos = .ok g' ∧ Inv g' ∧ g'.b = place g.b c pos ∧ g'.size = g.size ∧ g'.suicideenabled = g.suicideenabled ∧
      g'.movesDone = g.movesDone ∧ g'.winner = g.winner := by
  have hb : upd g.b pos c.cell = place g.b c pos := rfl
  set own := g.size * pos.1 + pos.2 with hown
  set freen := ((neighbors g.size pos).filter (fun n => decide (place g.b c pos n = .empty))).toFinset with hfreen
  have hfree : ∀ e, e ∈ freen ↔ Point g.size e ∧ Adj pos e ∧ g.b e = .empty ∧ e ≠ pos := by
    intro e
    rw [hfreen, List.mem_toFinset, List.mem_filter, mem_neighbors _ _ _ hP]
    simp only [decide_eq_true_eq]
    constructor
    · rintro ⟨⟨h1, h2⟩, h3⟩
      have he : e ≠ pos := fun e' => adj_irrefl pos (e' ▸ h2)
      rw [place_ne he] at h3
      exact ⟨h1, h2, h3, he⟩
    · rintro ⟨h1, h2, h3, h4⟩
      exact ⟨⟨h1, h2⟩, by rw [place_ne h4]; exact h3⟩
  have hfr : pos ∉ freen := fun h => ((hfree pos).1 h).2.2.2 rfl
  have h0 : LoopInv g pos freen [] [] own
      { groups := upd g.groups pos (some own), liberties := upd g.liberties own (some freen), merge := false } := by
    constructor
    · rfl
    · intro _; rfl
    · intro h; exact absurd rfl h
    · exact upd_same _ _ _
    · intro p hp k hk
      simp only
      rw [upd_other _ _ _ _ hp]
      exact ⟨fun h => by simp [touchedId] at h, fun _ => hk⟩
    · intro p hp hk
      simp only
      rw [upd_other _ _ _ _ hp]; exact hk
    · refine ⟨freen, upd_same _ _ _, fun e => ?_⟩
      constructor
      · intro h; exact ⟨fun he => hfr (he ▸ h), Or.inl h⟩
      · rintro ⟨_, h | ⟨f, hf, _⟩⟩
        · exact h
        · simp at hf
    · intro p k hp _
      have : k ≠ own := by rintro rfl; exact hI.fresh hP hpos p hp
      simp only
      rw [upd_other _ _ _ _ this]
      obtain ⟨L, hL, h⟩ := hI.libs p k hp
      exact ⟨L, hL, fun e => by rw [h e]; simp [touchedId]⟩
  obtain ⟨s, G, hs, hl⟩ := stoneLoop_inv (c := c) hI hP hpos hfr (neighbors g.size pos) [] [] own _ (fun _ h => h) (by simp) h0
  simp only [List.nil_append] at hl
  set fs := (neighbors g.size pos).filter (fun n => decide (g.b n = c.cell)) with hfs
  set es := (neighbors g.size pos).filter (fun n => decide (g.b n = c.opp.cell)) with hes
  -- group numbers after the move
  have htouch : ∀ (p : Pos) (k : Nat), g.groups p = some k → (touchedId g fs k ↔ Touched g.size g.b c pos p) :=
    fun p k hp => touchedId_iff hI hP hpos hp
  have hT : ∀ p, Point g.size p → Stone (place g.b c pos) p → Touched g.size g.b c pos p → s.groups p = some G := by
    intro p h1 h2 h3
    by_cases hp : p = pos
    · rw [hp]; exact hl.gpos
    · have hst : Stone g.b p := by unfold Stone at *; rwa [place_ne hp] at h2
      obtain ⟨k, hk⟩ := hI.stone_group h1 hst
      exact (hl.gsome p hp k hk).1 ((htouch p k hk).2 h3)
  have hN : ∀ p, Point g.size p → Stone (place g.b c pos) p → ¬ Touched g.size g.b c pos p →
      ∃ k, g.groups p = some k ∧ s.groups p = some k ∧ k ≠ G ∧ ¬ touchedId g fs k := by
    intro p h1 h2 h3
    have hp : p ≠ pos := fun e => h3 (Or.inl e)
    have hst : Stone g.b p := by unfold Stone at *; rwa [place_ne hp] at h2
    obtain ⟨k, hk⟩ := hI.stone_group h1 hst
    have hnt : ¬ touchedId g fs k := fun h => h3 ((htouch p k hk).1 h)
    exact ⟨k, hk, (hl.gsome p hp k hk).2 hnt, not_touched_G hI hP hpos hl hk hnt, hnt⟩
  have hgi : ∀ p, (s.groups p).isSome ↔ Point g.size p ∧ Stone (place g.b c pos) p := by
    intro p
    by_cases hp : p = pos
    · subst hp
      rw [hl.gpos]
      simp only [Option.isSome_some, true_iff]
      exact ⟨hP, stone_of_cell (c := c) place_pos⟩
    · have hst : Stone (place g.b c pos) p ↔ Stone g.b p := by unfold Stone; rw [place_ne hp]
      rw [hst, ← hI.groups_iff p]
      cases hk : g.groups p with
      | none => rw [hl.gnone p hp hk]
      | some k =>
        by_cases ht : touchedId g fs k
        · rw [(hl.gsome p hp k hk).1 ht]; simp
        · rw [(hl.gsome p hp k hk).2 ht]
  refine ⟨{ g with b := place g.b c pos, groups := s.groups, liberties := s.liberties }, ?_, ?_, rfl, rfl, rfl, rfl, rfl⟩
  · simp only [setStone, hb, ← hown]
    rw [← hfreen, hs]
  constructor
  · exact hgi
  · intro p k hp q
    simp only at hp ⊢
    obtain ⟨hpP, hpS⟩ := (hgi p).1 (by rw [hp]; rfl)
    rw [place_conn hP hpos]
    by_cases hq : (s.groups q).isSome
    · obtain ⟨hqP, hqS⟩ := (hgi q).1 hq
      by_cases tp : Touched g.size g.b c pos p
      · have e1 := hT p hpP hpS tp
        rw [hp] at e1
        cases e1
        by_cases tq : Touched g.size g.b c pos q
        · rw [hT q hqP hqS tq]
          exact ⟨fun _ => Or.inr ⟨tp, tq⟩, fun _ => rfl⟩
        · obtain ⟨k', _, e2, e3, _⟩ := hN q hqP hqS tq
          rw [e2]
          constructor
          · intro e; simp at e; exact absurd e e3
          · rintro (h | h)
            · exact absurd (touched_of_conn hpos h tp) tq
            · exact absurd h.2 tq
      · obtain ⟨k', e0, e2, e3, _⟩ := hN p hpP hpS tp
        rw [hp] at e2
        cases e2
        by_cases tq : Touched g.size g.b c pos q
        · rw [hT q hqP hqS tq]
          constructor
          · intro e; simp at e; exact absurd e.symm e3
          · rintro (h | h)
            · exact absurd (touched_of_conn hpos (conn_symm h) tq) tp
            · exact absurd h.1 tp
        · obtain ⟨k'', f0, f2, f3, _⟩ := hN q hqP hqS tq
          rw [f2, ← f0, hI.same p k e0 q]
          exact ⟨Or.inl, fun h => h.resolve_right (fun h => tp h.1)⟩
    · have hq0 : s.groups q = none := by simpa using hq
      rw [hq0]
      constructor
      · intro h; simp at h
      · intro h
        exfalso
        have hc := (place_conn (c := c) hP hpos p q).2 h
        rcases conn_color hc with rfl | ⟨i1, i2, _, i4⟩
        · rw [hp] at hq0; simp at hq0
        · exact hq ((hgi q).2 ⟨i4, by unfold Stone at *; rwa [← i2]⟩)
  · intro p k hp
    simp only at hp ⊢
    obtain ⟨hpP, hpS⟩ := (hgi p).1 (by rw [hp]; rfl)
    by_cases tp : Touched g.size g.b c pos p
    · have e1 := hT p hpP hpS tp
      rw [hp] at e1
      cases e1
      obtain ⟨L, hL, hmem⟩ := hl.libG
      refine ⟨L, hL, fun e => ?_⟩
      rw [hmem e, place_liberties_touched hP hpos tp]
      refine and_congr_right (fun he => or_congr ?_ ?_)
      · rw [hfree e]
        exact ⟨fun h => ⟨h.1, h.2.1, h.2.2.1⟩, fun h => ⟨h.1, h.2.1, h.2.2, he⟩⟩
      · constructor
        · rintro ⟨f, hf, h⟩
          obtain ⟨a, b, d⟩ := (mem_friends hI hP hpos f c.cell).1 hf
          exact ⟨f, a, b, d, h⟩
        · rintro ⟨f, a, b, d, h⟩
          exact ⟨f, (mem_friends hI hP hpos f c.cell).2 ⟨a, b, d⟩, h⟩
    · obtain ⟨k', e0, e2, e3, e4⟩ := hN p hpP hpS tp
      rw [hp] at e2
      cases e2
      obtain ⟨L, hL, hmem⟩ := hl.libO p k e0 e4
      refine ⟨L, hL, fun e => ?_⟩
      rw [hmem e, place_liberties_other hP hpos tp]
      constructor
      · rintro ⟨h1, h2⟩
        refine ⟨?_, h1⟩
        rintro rfl
        obtain ⟨_, _, q, h3, h4⟩ := h1
        refine h2 ⟨rfl, q, ?_, (hI.same p k e0 q).2 h3⟩
        have hqs := hI.group_stone ((hI.same p k e0 q).2 h3)
        refine (mem_friends hI hP hpos q c.opp.cell).2 ⟨hqs.1, adj_symm h4, ?_⟩
        rcases color_cases c g.b q hqs.2 with hc | hc
        · exact absurd (Or.inr ⟨q, hqs.1, adj_symm h4, hc, conn_symm h3⟩) tp
        · exact hc
      · rintro ⟨h1, h2⟩
        exact ⟨h2, fun h => h1 h.1⟩
  · intro p k hp
    simp only at hp ⊢
    obtain ⟨hpP, hpS⟩ := (hgi p).1 (by rw [hp]; rfl)
    by_cases tp : Touched g.size g.b c pos p
    · have e1 := hT p hpP hpS tp
      rw [hp] at e1
      cases e1
      by_cases hf : fs = []
      · exact ⟨pos, hP, hl.own hf, hl.gpos⟩
      · obtain ⟨f, _, hfk⟩ := hl.touched hf
        obtain ⟨q, h1, h2, h3⟩ := hI.ids f _ hfk
        have hq : q ≠ pos := by
          rintro rfl; exact not_stone_empty hpos (hI.group_stone h3).2
        exact ⟨q, h1, h2, (hl.gsome q hq _ h3).1 (hl.touched hf)⟩
    · obtain ⟨k', e0, e2, e3, e4⟩ := hN p hpP hpS tp
      rw [hp] at e2
      cases e2
      obtain ⟨q, h1, h2, h3⟩ := hI.ids p k e0
      have hq : q ≠ pos := by
        rintro rfl; exact not_stone_empty hpos (hI.group_stone h3).2
      exact ⟨q, h1, h2, (hl.gsome q hq k h3).2 e4⟩
  · intro p
    simp only
    by_cases hp : p = pos
    · subst hp; exact Or.inr ⟨hP, stone_of_cell (c := c) place_pos⟩
    · unfold Stone; rw [place_ne hp]; exact hI.clean p
  · intro p hpP hpS
    simp only at hpP hpS ⊢
    by_cases tp : Touched g.size g.b c pos p
    · rw [liberties_conn ((place_conn (c := c) hP hpos p pos).2 (Or.inr ⟨tp, Or.inl rfl⟩))]
      exact halive
    · have hp : p ≠ pos := fun e => tp (Or.inl e)
      have hst : Stone g.b p := by unfold Stone at *; rwa [place_ne hp] at hpS
      by_cases hpl : pos ∈ Spec.liberties g.size g.b p
      · obtain ⟨_, _, q, h3, h4⟩ := hpl
        obtain ⟨k, hk⟩ := hI.stone_group hpP hst
        have hqs := hI.group_stone ((hI.same p k hk q).2 h3)
        have hqo : g.b q = c.opp.cell := by
          rcases color_cases c g.b q hqs.2 with hc | hc
          · exact absurd (Or.inr ⟨q, hqs.1, adj_symm h4, hc, conn_symm h3⟩) tp
          · exact hc
        rw [liberties_conn ((place_conn (c := c) hP hpos p q).2 (Or.inl h3)), Set.nonempty_iff_ne_empty]
        intro he
        exact hcap ⟨q, hqs.1, adj_symm h4, hqo, he⟩
      · obtain ⟨e, he⟩ := hI.alive p hpP hst
        exact ⟨e, (place_liberties_other hP hpos tp e).2 ⟨fun h => hpl (h ▸ he), he⟩⟩

end setStone

end Verif.Capture
