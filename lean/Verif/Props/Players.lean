import Verif.Model.Players
import Verif.Props.CaptureGame
import Verif.Props.Draw
import Mathlib.Tactic.Linarith
import Mathlib.Tactic.Ring
/-
C129: players of the capture game and Go-Moku.
-/
namespace Verif.Players
open Verif.DataSet (Err)
open Verif.Capture Verif.Capture.Spec Verif.Props

theorem filterE_ok {α : Type} {f : α → Except Err Bool} {P : α → Prop} (l : List α) (h : ∀ a ∈ l, ∃ r, f a = .ok r ∧ (r = true ↔ P a)) :
    ∃ l', filterE f l = .ok l' ∧ ∀ a, a ∈ l' ↔ a ∈ l ∧ P a := by
  induction l with
  | nil => exact ⟨[], rfl, by simp⟩
  | cons a l ih =>
    obtain ⟨l', h1, h2⟩ := ih fun x hx => h x (List.mem_cons_of_mem _ hx)
    obtain ⟨r, h3, h4⟩ := h a List.mem_cons_self
    refine ⟨if r then a :: l' else l', by simp [filterE, h3, h1, Except.map], fun x => ?_⟩
    cases r
    · simp only [Bool.false_eq_true, if_false, h2, List.mem_cons] at h4 ⊢
      constructor
      · exact fun ⟨h5, h6⟩ => ⟨Or.inr h5, h6⟩
      · rintro ⟨rfl | h5, h6⟩
        · exact absurd h6 (by simpa using h4)
        · exact ⟨h5, h6⟩
    · simp only [if_true, List.mem_cons, h2] at h4 ⊢
      constructor
      · rintro (rfl | ⟨h5, h6⟩)
        · exact ⟨Or.inl rfl, by simpa using h4⟩
        · exact ⟨Or.inr h5, h6⟩
      · rintro ⟨rfl | h5, h6⟩
        · exact Or.inl rfl
        · exact Or.inr ⟨h5, h6⟩

theorem choice_ok {α : Type} {ch : Nat → Nat} (hch : ∀ n, 0 < n → ch n < n) {l : List α} (hl : l ≠ []) : ∃ a ∈ l, choice ch l = .ok a := by
  have h := hch l.length (List.length_pos_iff.2 hl)
  exact ⟨l[ch l.length], List.getElem_mem h, by simp [choice, h]⟩

theorem mem_getLegals (g : Game) (p : Pos) : p ∈ getLegals g ↔ Point g.size p ∧ g.b p = .empty := by
  simp [getLegals, mem_iterPos]

theorem acceptable_ok {size : Nat} {se : Bool} {g : Game} (h : Reached size se g) (hw : g.winner = none) (c : Color) :
    ∃ l, getAcceptable g c = .ok l ∧ ∀ p, p ∈ l ↔ (Point size p ∧ g.b p = .empty) ∧ ¬ Suicide size g.b c p := by
  have hs := (reached_inv h hw).2.1
  obtain ⟨l, h1, h2⟩ := filterE_ok (P := fun p => ¬ Suicide size g.b c p) (f := fun p => (suicide g c p).map (!·)) (getLegals g) (fun p hp => by
    rw [mem_getLegals, hs] at hp
    obtain ⟨r, h1, h2⟩ := (C33_judgements size se g h hw c p hp.1 hp.2).2
    refine ⟨!r, by simp [h1, Except.map], ?_⟩
    rw [← h2]; simp)
  exact ⟨l, h1, fun p => by rw [h2, mem_getLegals, hs]⟩

theorem killing_ok {size : Nat} {se : Bool} {g : Game} (h : Reached size se g) (hw : g.winner = none) (c : Color) :
    ∃ l, getKilling g c = .ok l ∧ ∀ p, p ∈ l ↔ (Point size p ∧ g.b p = .empty) ∧ Captures size g.b c p := by
  obtain ⟨l, h1, h2⟩ := acceptable_ok h hw c
  obtain ⟨l', h3, h4⟩ := filterE_ok (P := fun p => Captures size g.b c p) (f := capture g c) l (fun p hp => by
    have := ((h2 p).1 hp).1
    exact (C33_judgements size se g h hw c p this.1 this.2).1)
  refine ⟨l', by simp [getKilling, h1, h3, Except.bind], fun p => ?_⟩
  rw [h4, h2]
  constructor
  · exact fun ⟨⟨a, _⟩, b⟩ => ⟨a, b⟩
  · exact fun ⟨a, b⟩ => ⟨⟨a, fun hs => hs.2 b⟩, b⟩

/-- an undecided game has an empty point -/
theorem legals_ne {size : Nat} {se : Bool} {g : Game} (h : Reached size se g) (hw : g.winner = none) (hsize : 0 < size) : getLegals g ≠ [] := by
  have hs := (reached_inv h hw).2.1
  suffices ∃ p, p ∈ getLegals g from fun he => by obtain ⟨p, hp⟩ := this; rw [he] at hp; simp at hp
  by_cases h0 : g.b (0, 0) = .empty
  · exact ⟨(0, 0), by rw [mem_getLegals, hs]; exact ⟨⟨hsize, hsize⟩, h0⟩⟩
  · obtain ⟨_, _, _, ⟨e, he⟩⟩ := (C33_bookkeeping size se g h hw (0, 0) ⟨hsize, hsize⟩).2 h0
    exact ⟨e, by rw [mem_getLegals, hs]; exact ⟨he.1, he.2.1⟩⟩

theorem play_append (g g' : Game) (ms : List (Color × Move)) (h : play g ms = .ok g') (c : Color) (m : Move) (g'' : Game) (r : Bool)
    (hd : doMove g' c m = .ok (g'', r)) : play g (ms ++ [(c, m)]) = .ok g'' := by
  induction ms generalizing g with
  | nil =>
    rw [play] at h
    obtain rfl : g = g' := by simpa using h
    simp [play, hd]
  | cons x ms ih =>
    obtain ⟨c', m'⟩ := x
    rw [List.cons_append]
    rw [play] at h ⊢
    cases hx : doMove g c' m' with
    | error e => rw [hx] at h; simp at h
    | ok q => rw [hx] at h; exact ih q.1 h

theorem reached_step {size : Nat} {se : Bool} {g g' : Game} (h : Reached size se g) {c : Color} {m : Move} {r : Bool} (hd : doMove g c m = .ok (g', r)) :
    Reached size se g' := by
  obtain ⟨ms, hm⟩ := h
  exact ⟨ms ++ [(c, m)], play_append _ _ ms hm c m g' r hd⟩

theorem cell_ne (c : Color) : c.cell ≠ .empty := by cases c <;> simp [Color.cell]

theorem filter_length_erase {α : Type} [DecidableEq α] (f g : α → Bool) (x : α) (h : ∀ a, g a = (f a && decide (a ≠ x))) (hx : f x = true) (l : List α) :
    l.Nodup → x ∈ l → (l.filter g).length + 1 = (l.filter f).length := by
  induction l with
  | nil => simp
  | cons a l ih =>
    intro hn hm
    rw [List.nodup_cons] at hn
    by_cases ha : a = x
    · subst ha
      have e : l.filter g = l.filter f := by
        refine List.filter_congr fun b hb => ?_
        have : b ≠ a := fun hba => hn.1 (hba ▸ hb)
        rw [h]; simp [this]
      rw [List.filter_cons_of_neg (by rw [h]; simp), List.filter_cons_of_pos hx, e, List.length_cons]
    · have hm' : x ∈ l := by
        rcases List.mem_cons.1 hm with h1 | h1
        · exact absurd h1.symm ha
        · exact h1
      have e : g a = f a := by rw [h]; simp [ha]
      have := ih hn.2 hm'
      cases hf : f a
      · rw [List.filter_cons_of_neg (by rw [e, hf]; simp), List.filter_cons_of_neg (by rw [hf]; simp)]; exact this
      · rw [List.filter_cons_of_pos (by rw [e, hf]), List.filter_cons_of_pos hf, List.length_cons, List.length_cons, this]

theorem legals_length {size : Nat} {se : Bool} {g g' : Game} (h : Reached size se g) (hw : g.winner = none) (h' : Reached size se g') (hw' : g'.winner = none)
    {c : Color} {pos : Pos} (hp : pos ∈ getLegals g) (hb : g'.b = place g.b c pos) : (getLegals g').length + 1 = (getLegals g).length := by
  have hs := (reached_inv h hw).2.1
  have hs' := (reached_inv h' hw').2.1
  rw [mem_getLegals] at hp
  unfold getLegals
  rw [hs', hs, hb]
  refine filter_length_erase _ _ pos (fun a => ?_) (by simp [hp.2]) _ (iterPos_nodup size) ((mem_iterPos size pos).2 (hs ▸ hp.1))
  unfold place
  by_cases ha : a = pos
  · simp [ha, cell_ne]
  · simp [ha]

end Verif.Players

namespace Verif.Props
open Verif.DataSet (Err)
open Verif.Capture Verif.Capture.Spec Verif.Players

/-- **C129, killing players.** In every undecided game a `KillingPlayer` has a move; if the player can capture, the move wins the game at once; otherwise, if there
is a move that is not suicide, it makes one and does not lose by it. -/
theorem C129_killing (size : Nat) (hsize : 0 < size) (se : Bool) (g : Game) (h : Reached size se g) (hw : g.winner = none) (c : Color) (ch : Nat → Nat)
    (hch : ∀ n, 0 < n → ch n < n) : ∃ pos, killingPlayer ch g c = .ok pos ∧ Point size pos ∧ g.b pos = .empty ∧
      ((∃ p, Point size p ∧ g.b p = .empty ∧ Captures size g.b c p) → ∃ g', doMove g c (.at pos) = .ok (g', true) ∧ g'.winner = some c) ∧
      ((∃ p, Point size p ∧ g.b p = .empty ∧ ¬ Suicide size g.b c p) → ¬ Suicide size g.b c pos ∧
        ∃ g', doMove g c (.at pos) = .ok (g', true) ∧ g'.winner ≠ some c.opp) := by
  have hs := (reached_inv h hw).2.1
  obtain ⟨k, hk, hk2⟩ := killing_ok h hw c
  obtain ⟨l, hl, hl2⟩ := acceptable_ok h hw c
  have hopp : c ≠ c.opp := by cases c <;> simp [Color.opp]
  have good : ∀ p, (Point size p ∧ g.b p = .empty) → ¬ Suicide size g.b c p → ∃ g', doMove g c (.at p) = .ok (g', true) ∧ g'.winner ≠ some c.opp := by
    intro p hp hns
    obtain ⟨-, h2⟩ := C33_moves size se g h hw c p
    by_cases hc : Captures size g.b c p
    · obtain ⟨g', e1, e2⟩ := (h2 hp).2.1 hc
      exact ⟨g', e1, by rw [e2]; simpa using hopp⟩
    · obtain ⟨g', e1, _, e2⟩ := (h2 hp).2.2 hns hc
      exact ⟨g', e1, by rw [e2]; simp⟩
  by_cases hne : k = []
  · have hno : ¬ ∃ p, Point size p ∧ g.b p = .empty ∧ Captures size g.b c p := by
      rintro ⟨p, h1, h2, h3⟩
      have := (hk2 p).2 ⟨⟨h1, h2⟩, h3⟩
      rw [hne] at this; simp at this
    have e1 : killingPlayer ch g c = nonSuicidePlayer ch g c := by simp [killingPlayer, hk, hne, Except.bind]
    by_cases hle : l = []
    · have e2 : nonSuicidePlayer ch g c = randomPlayer ch g := by simp [nonSuicidePlayer, hl, hle, Except.bind]
      obtain ⟨a, ha, hc⟩ := choice_ok hch (legals_ne h hw hsize)
      rw [mem_getLegals, hs] at ha
      refine ⟨a, by rw [e1, e2]; exact hc, ha.1, ha.2, fun hex => absurd hex hno, ?_⟩
      rintro ⟨p, h1, h2, h3⟩
      have := (hl2 p).2 ⟨⟨h1, h2⟩, h3⟩
      rw [hle] at this; simp at this
    · obtain ⟨a, ha, hc⟩ := choice_ok hch hle
      have e2 : nonSuicidePlayer ch g c = choice ch l := by simp [nonSuicidePlayer, hl, Except.bind, List.length_pos_iff.2 hle]
      have := (hl2 a).1 ha
      exact ⟨a, by rw [e1, e2]; exact hc, this.1.1, this.1.2, fun hex => absurd hex hno, fun _ => ⟨this.2, good a this.1 this.2⟩⟩
  · obtain ⟨a, ha, hc⟩ := choice_ok hch hne
    have e1 : killingPlayer ch g c = choice ch k := by simp [killingPlayer, hk, Except.bind, List.length_pos_iff.2 hne]
    have := (hk2 a).1 ha
    have hns : ¬ Suicide size g.b c a := fun hsu => hsu.2 this.2
    exact ⟨a, by rw [e1]; exact hc, this.1.1, this.1.2, fun _ => ((C33_moves size se g h hw c a).2 this.1).2.1 this.2, fun _ => ⟨hns, good a this.1 hns⟩⟩

/-- **C129, careful and random players** have a move in every undecided game; that of a `NonSuicidePlayer` is not suicide if there is another one. -/
theorem C129_careful (size : Nat) (hsize : 0 < size) (se : Bool) (g : Game) (h : Reached size se g) (hw : g.winner = none) (c : Color) (ch : Nat → Nat)
    (hch : ∀ n, 0 < n → ch n < n) : (∃ pos, randomPlayer ch g = .ok pos ∧ Point size pos ∧ g.b pos = .empty) ∧
    ∃ pos, nonSuicidePlayer ch g c = .ok pos ∧ Point size pos ∧ g.b pos = .empty ∧
      ((∃ p, Point size p ∧ g.b p = .empty ∧ ¬ Suicide size g.b c p) → ¬ Suicide size g.b c pos) := by
  have hs := (reached_inv h hw).2.1
  obtain ⟨l, hl, hl2⟩ := acceptable_ok h hw c
  obtain ⟨a, ha, hc⟩ := choice_ok hch (legals_ne h hw hsize)
  rw [mem_getLegals, hs] at ha
  refine ⟨⟨a, hc, ha⟩, ?_⟩
  by_cases hle : l = []
  · refine ⟨a, ?_, ha.1, ha.2, ?_⟩
    · simp only [nonSuicidePlayer, hl, hle, Except.bind, List.length_nil, lt_irrefl, if_false]; exact hc
    · rintro ⟨p, h1, h2, h3⟩
      have := (hl2 p).2 ⟨⟨h1, h2⟩, h3⟩
      rw [hle] at this; simp at this
  · obtain ⟨b, hb, hc'⟩ := choice_ok hch hle
    have := (hl2 b).1 hb
    exact ⟨b, by simp [nonSuicidePlayer, hl, Except.bind, List.length_pos_iff.2 hle, hc'], this.1.1, this.1.2, fun _ => this.2⟩

/-- a player who always plays on an empty point (as the random, careful and killing players do) -/
def Sane (size : Nat) (p : Nat → Game → Except Err Pos) : Prop :=
  ∀ t g, Reached size true g → g.winner = none → ∃ pos, p t g = .ok pos ∧ Point size pos ∧ g.b pos = .empty

/-- **C129, games end.** With suicide enabled (the default), a game between any two players who play on empty points is decided after at most as many moves
as there are points; there are no draws. -/
theorem C129_end (size : Nat) (hsize : 0 < size) (p1 p2 : Nat → Game → Except Err Pos) (h1 : Sane size p1) (h2 : Sane size p2) (c1 : Color) (n : Nat)
    (hn : size * size ≤ n) : ∃ g w, playToTheEnd p1 p2 c1 n 0 (newGame size true) = .ok g ∧ g.winner = some w := by
  have key : ∀ (n t : Nat) (g : Game), Reached size true g → (g.winner = none → (getLegals g).length ≤ n) →
      ∃ g' w, playToTheEnd p1 p2 c1 n t g = .ok g' ∧ g'.winner = some w := by
    intro n
    induction n with
    | zero =>
      intro t g hr hl
      cases hw : g.winner with
      | some w => exact ⟨g, w, rfl, hw⟩
      | none => exact absurd (List.length_eq_zero_iff.1 (Nat.le_zero.1 (hl hw))) (legals_ne hr hw hsize)
    | succ n ih =>
      intro t g hr hl
      cases hw : g.winner with
      | some w => exact ⟨g, w, by simp [playToTheEnd, hw], hw⟩
      | none =>
        have hmove : ∃ pos, (if t % 2 = 0 then p1 t g else p2 t g) = .ok pos ∧ Point size pos ∧ g.b pos = .empty := by
          by_cases ht : t % 2 = 0
          · simpa only [ht, if_true] using h1 t g hr hw
          · simpa only [ht, if_false] using h2 t g hr hw
        obtain ⟨pos, hp, hpt, hpe⟩ := hmove
        have hs := (reached_inv hr hw).2.1
        have hmem : pos ∈ getLegals g := (mem_getLegals g pos).2 ⟨hs ▸ hpt, hpe⟩
        generalize hc : (if t % 2 = 0 then c1 else c1.opp) = c
        have hstep : ∃ g', doMove g c (.at pos) = .ok (g', true) ∧ (g'.winner = none → g'.b = place g.b c pos) := by
          have hm := (C33_moves size true g hr hw c pos).2 ⟨hpt, hpe⟩
          by_cases hsu : Suicide size g.b c pos
          · obtain ⟨g', e1, e2⟩ := by simpa using hm.1 hsu
            exact ⟨g', e1, fun h => by rw [e2] at h; simp at h⟩
          · by_cases hca : Captures size g.b c pos
            · obtain ⟨g', e1, e2⟩ := hm.2.1 hca
              exact ⟨g', e1, fun h => by rw [e2] at h; simp at h⟩
            · obtain ⟨g', e1, e2, _⟩ := hm.2.2 hsu hca
              exact ⟨g', e1, fun _ => e2⟩
        obtain ⟨g', hd, hb⟩ := hstep
        have hr' := reached_step hr hd
        have e : playToTheEnd p1 p2 c1 (n + 1) t g = playToTheEnd p1 p2 c1 n (t + 1) g' := by
          rw [playToTheEnd]
          simp only [hw, Option.isSome_none, Bool.false_eq_true, if_false, hp, hc, hd]
        rw [e]
        refine ih (t + 1) g' hr' fun hw' => ?_
        have := legals_length hr hw hr' hw' hmem (hb hw')
        have := hl hw
        omega
  refine key n 0 _ ⟨[], rfl⟩ fun _ => ?_
  have : (getLegals (newGame size true)).length ≤ (iterPos size).length := List.length_filter_le _ _
  have hlen : (iterPos size).length = size * size := by simp [iterPos]
  omega

/-- **C129, alternation.** What `playToTheEnd` returns is reached by a sequence of moves: the moves with even number are those the first player answers with in the game reached so far, and are made in that
player's colour, those with odd number are the second player's in the other colour. No move is made in a decided game, and there is a winner unless the limit on the number of moves was reached. -/
theorem C129_alternate (p1 p2 : Nat → Game → Except Err Pos) (c1 : Color) (n : Nat) (g₀ g : Game) (h : playToTheEnd p1 p2 c1 n 0 g₀ = .ok g) :
    ∃ (len : Nat) (G : Nat → Game), len ≤ n ∧ G 0 = g₀ ∧ G len = g ∧ (len < n → g.winner.isSome = true) ∧
      ∀ k < len, (G k).winner = none ∧ ∃ pos r,
        (k % 2 = 0 → p1 k (G k) = .ok pos ∧ doMove (G k) c1 (.at pos) = .ok (G (k + 1), r)) ∧
        (k % 2 = 1 → p2 k (G k) = .ok pos ∧ doMove (G k) c1.opp (.at pos) = .ok (G (k + 1), r)) := by
  have key : ∀ (n t : Nat) (g₀ g : Game), playToTheEnd p1 p2 c1 n t g₀ = .ok g → ∃ (len : Nat) (G : Nat → Game), len ≤ n ∧ G 0 = g₀ ∧ G len = g ∧
      (len < n → g.winner.isSome = true) ∧ ∀ k < len, (G k).winner = none ∧ ∃ pos r,
        ((t + k) % 2 = 0 → p1 (t + k) (G k) = .ok pos ∧ doMove (G k) c1 (.at pos) = .ok (G (k + 1), r)) ∧
        ((t + k) % 2 = 1 → p2 (t + k) (G k) = .ok pos ∧ doMove (G k) c1.opp (.at pos) = .ok (G (k + 1), r)) := by
    intro n
    induction n with
    | zero =>
      intro t g₀ g hp
      rw [playToTheEnd] at hp
      obtain rfl := Except.ok.inj hp
      exact ⟨0, fun _ => g₀, le_refl _, rfl, rfl, by simp, by simp⟩
    | succ n ih =>
      intro t g₀ g hp
      rw [playToTheEnd] at hp
      by_cases hw : g₀.winner.isSome = true
      · rw [if_pos hw] at hp
        obtain rfl := Except.ok.inj hp
        exact ⟨0, fun _ => g₀, by omega, rfl, rfl, fun _ => hw, by simp⟩
      · rw [if_neg hw] at hp
        generalize ha : (if t % 2 = 0 then p1 t g₀ else p2 t g₀) = a at hp
        cases a with
        | error e => simp at hp
        | ok pos =>
          simp only at hp
          generalize hd : doMove g₀ (if t % 2 = 0 then c1 else c1.opp) (.at pos) = d at hp
          cases d with
          | error e => simp at hp
          | ok gr =>
            obtain ⟨g', r⟩ := gr
            obtain ⟨len, G, h1, h2, h3, h4, h5⟩ := ih (t + 1) g' g hp
            refine ⟨len + 1, fun k => match k with | 0 => g₀ | k + 1 => G k, by omega, rfl, h3, fun hl => h4 (by omega), ?_⟩
            intro k hk
            cases k with
            | zero =>
              refine ⟨by simpa using hw, pos, r, fun ht => ?_, fun ht => ?_⟩
              · rw [Nat.add_zero] at ht ⊢
                rw [if_pos ht] at ha hd
                exact ⟨ha, by rw [hd, ← h2]⟩
              · rw [Nat.add_zero] at ht ⊢
                rw [if_neg (by omega)] at ha hd
                exact ⟨ha, by rw [hd, ← h2]⟩
            | succ k =>
              obtain ⟨hk1, pos', r', hk2, hk3⟩ := h5 k (by omega)
              have e : t + 1 + k = t + (k + 1) := by omega
              rw [e] at hk2 hk3
              exact ⟨hk1, pos', r', hk2, hk3⟩
  obtain ⟨len, G, h1, h2, h3, h4, h5⟩ := key n 0 g₀ g h
  refine ⟨len, G, h1, h2, h3, h4, fun k hk => ?_⟩
  have := h5 k hk
  rwa [Nat.zero_add] at this

/-- **C129, no deadlock.** On boards with more than one point, no empty point is suicide for both players. -/
theorem C129_deadlock (size : Nat) (hsize : 2 ≤ size) (se : Bool) (g : Game) (h : Reached size se g) (hw : g.winner = none) (e : Pos) (he : Point size e)
    (hb : g.b e = .empty) : ∃ c, ¬ Suicide size g.b c e := by
  have hI := (reached_inv h hw).1
  -- a neighbouring point
  obtain ⟨n, hn, hadj⟩ : ∃ n, Point size n ∧ Adj e n := by
    obtain ⟨a, b⟩ := e
    obtain ⟨ha, hb'⟩ := he
    by_cases hlt : a + 1 < size
    · exact ⟨(a + 1, b), ⟨hlt, hb'⟩, Or.inr ⟨rfl, Or.inl rfl⟩⟩
    · exact ⟨(a - 1, b), ⟨by simp at ha ⊢; omega, hb'⟩, Or.inr ⟨rfl, Or.inr (by simp at ha ⊢; omega)⟩⟩
  by_contra hcon
  push Not at hcon
  by_cases hne : g.b n = .empty
  · -- an empty neighbour is a liberty
    have := (hcon .black).1
    have hmem : n ∈ Spec.liberties size (place g.b .black e) e := by
      refine ⟨hn, ?_, e, Relation.ReflTransGen.refl, hadj⟩
      unfold place
      rw [if_neg, hne]
      rintro rfl
      rcases hadj with ⟨_, h | h⟩ | ⟨_, h | h⟩ <;> omega
    rw [this] at hmem; simp at hmem
  · have hst : Stone g.b n := by
      rcases hI.clean n with h | h
      · exact absurd h hne
      · exact h.2
    obtain ⟨c, hc⟩ : ∃ c : Color, g.b n = c.cell := by
      rcases hst with h | h
      · exact ⟨.black, h⟩
      · exact ⟨.white, h⟩
    have hen : n ≠ e := fun h => hne (h ▸ hb)
    -- the enemy does not capture it, so that it has another liberty
    have hcap := (hcon c.opp).2
    have hlib : (Spec.liberties size (place g.b c.opp e) n).Nonempty := by
      rw [Set.nonempty_iff_ne_empty]
      intro hempty
      refine hcap ⟨n, hn, hadj, ?_, hempty⟩
      rw [hc]; cases c <;> rfl
    obtain ⟨f, hf1, hf2, q, hq, hf3⟩ := hlib
    have hfe : f ≠ e := by
      rintro rfl
      unfold place at hf2
      rw [if_pos rfl] at hf2
      exact cell_ne _ hf2
    have hconn : ∀ q, Connected size (place g.b c.opp e) n q → Connected size (place g.b c e) n q ∧ q ≠ e := by
      intro q hq
      induction hq with
      | refl => exact ⟨Relation.ReflTransGen.refl, hen⟩
      | tail hq1 hlink ih =>
        rename_i x y
        obtain ⟨i1, i2⟩ := ih
        obtain ⟨l1, l2, l3, l4, l5⟩ := hlink
        have hxc : g.b x = c.cell := by
          have := conn_eq_color hq1
          unfold place at this
          rw [if_neg hen, if_neg i2] at this
          rw [← this, hc]
        have hye : y ≠ e := by
          rintro rfl
          unfold place at l5
          rw [if_neg i2, if_pos rfl, hxc] at l5
          cases c <;> simp [Color.cell, Color.opp] at l5
        have hyc : g.b y = c.cell := by
          unfold place at l5
          rw [if_neg i2, if_neg hye] at l5
          rw [← l5, hxc]
        refine ⟨i1.tail ⟨l1, l2, l3, ?_, ?_⟩, hye⟩
        · unfold Stone place
          rw [if_neg i2, hxc]
          cases c <;> simp [Color.cell]
        · unfold place
          rw [if_neg i2, if_neg hye, hxc, hyc]
    have hown := (hcon c).1
    have hmem : f ∈ Spec.liberties size (place g.b c e) e := by
      refine ⟨hf1, ?_, q, ?_, hf3⟩
      · unfold place at hf2 ⊢
        rw [if_neg hfe] at hf2 ⊢
        exact hf2
      · refine Relation.ReflTransGen.head ⟨he, hn, hadj, ?_, ?_⟩ (hconn q hq).1
        · unfold Stone place
          rw [if_pos rfl]
          cases c <;> simp [Color.cell]
        · unfold place
          rw [if_pos rfl, if_neg hen, hc]
    rw [hown] at hmem; simp at hmem

/-- **C129 violated: without suicide** a game on a board with one point never ends: all moves are refused. -/
theorem C129_negation_endless (c1 : Color) (p1 p2 : Nat → Game → Except Err Pos) (h1 : ∀ t g, p1 t g = .ok (0, 0)) (h2 : ∀ t g, p2 t g = .ok (0, 0)) (n : Nat) :
    ∃ g, playToTheEnd p1 p2 c1 n 0 (newGame 1 false) = .ok g ∧ g.winner = none := by
  have key : ∀ (n t m : Nat), ∃ g, playToTheEnd p1 p2 c1 n t { newGame 1 false with movesDone := m } = .ok g ∧ g.winner = none := by
    intro n
    induction n with
    | zero => exact fun t m => ⟨_, rfl, rfl⟩
    | succ n ih =>
      intro t m
      obtain ⟨g, h3, h4⟩ := ih (t + 1) (m + 1)
      refine ⟨g, ?_, h4⟩
      rw [playToTheEnd]
      have hp : (if t % 2 = 0 then p1 t { newGame 1 false with movesDone := m } else p2 t { newGame 1 false with movesDone := m }) = .ok (0, 0) := by
        split
        · exact h1 _ _
        · exact h2 _ _
      have hd : ∀ c, doMove { newGame 1 false with movesDone := m } c (.at (0, 0)) = .ok ({ newGame 1 false with movesDone := m + 1 }, false) := by
        intro c; cases c <;> rfl
      simp only [hp, hd]
      exact h3
  exact key n 0 0

/-- **C129, the input of deciding modules** has two entries for each position: whether there is a stone of the opponent, and whether there is an own one. -/
theorem C129_input (g : Game) (c : Color) : moduleInput g c =
    (iterPos g.size).flatMap fun p => [if g.b p = c.opp.cell then 1 else 0, if g.b p = c.cell then 1 else 0] := by
  have hinv : ∀ l : List Pos, invert (l.flatMap fun p => if g.b p = .white then [1, 0] else if g.b p = .black then [0, 1] else [0, 0]) =
      l.flatMap fun p => [if g.b p = .black then 1 else 0, if g.b p = .white then 1 else 0] := by
    intro l
    induction l with
    | nil => rfl
    | cons p l ih =>
      rw [List.flatMap_cons, List.flatMap_cons]
      cases hp : g.b p <;> simp [invert] <;> simpa using ih
  cases c
  · unfold moduleInput boardArray
    rw [if_pos rfl]
    congr 1
    funext p
    cases hp : g.b p <;> simp [Color.opp, Color.cell]
  · unfold moduleInput boardArray
    rw [if_neg (by simp), hinv]
    rfl

end Verif.Props

namespace Verif.Players
open Verif.DataSet (Err)
open Verif.Capture

/-- The values after the loop of `_legalizeIt` -/
theorem fillVals_spec (w : Nat) (a : List ℝ) : ∀ (ps : List Pos) (vals : List ℝ), vals.length = a.length → (∀ p ∈ ps, p.1 * w + p.2 < a.length) →
    ∃ out, fillVals w a ps vals = .ok out ∧ out.length = a.length ∧
      ∀ i, out.getD i 0 = if i ∈ ps.map (fun p => p.1 * w + p.2) then a.getD i 0 else vals.getD i 0
  | [], vals, hl, _ => ⟨vals, rfl, hl, fun i => by simp⟩
  | p :: ps, vals, hl, hp => by
    obtain ⟨out, h1, h2, h3⟩ := fillVals_spec w a ps (vals.set (p.1 * w + p.2) (a.getD (p.1 * w + p.2) 0)) (by simpa using hl)
      (fun q hq => hp q (List.mem_cons_of_mem _ hq))
    refine ⟨out, by rw [fillVals, if_pos (hp p List.mem_cons_self)]; exact h1, h2, fun i => ?_⟩
    have hlt := hp p List.mem_cons_self
    rw [h3, List.map_cons]
    by_cases hm : i ∈ ps.map (fun p => p.1 * w + p.2)
    · rw [if_pos hm, if_pos (List.mem_cons_of_mem _ hm)]
    · rw [if_neg hm]
      by_cases hi : i = p.1 * w + p.2
      · rw [if_pos (List.mem_cons.2 (Or.inl hi)), hi]
        simp [List.getD_eq_getElem?_getD, hl, hlt]
      · rw [if_neg (fun h => (List.mem_cons.1 h).elim hi hm)]
        simp [List.getD_eq_getElem?_getD, List.getElem?_set, Ne.symm hi]

end Verif.Players

namespace Verif.Props
open Verif.DataSet (Err)
open Verif.Capture Verif.Capture.Spec Verif.Players

/-- **C129, greedy deciding players** (temperature 0) choose a legal position whose value is largest among the legal ones, whenever there is one. -/
theorem C129_greedy (n : Nat) (legals : List Pos) (hl : ∀ p ∈ legals, Point n p) (hne : legals ≠ []) (a : List ℝ) (ha : a.length = n * n) (h0 : ∀ v ∈ a, 0 ≤ v)
    (ch : Nat → Nat) (hch : ∀ n, 0 < n → ch n < n) (r : ℝ) :
    ∃ p, legalizeIt ch r n legals a 0 = .ok p ∧ p ∈ legals ∧ ∀ q ∈ legals, a.getD (q.1 * n + q.2) 0 ≤ a.getD (p.1 * n + p.2) 0 := by
  have hix : ∀ p : Pos, Point n p → p.1 * n + p.2 < n * n := fun p hp => by
    have := Nat.mul_le_mul_right n (show p.1 + 1 ≤ n from hp.1)
    have := hp.2
    rw [Nat.add_mul] at *
    omega
  obtain ⟨vals, h1, h2, h3⟩ := fillVals_spec n a legals (List.replicate a.length (-100 * (1 + 0))) (by simp) (fun p hp => ha ▸ hix p (hl p hp))
  have hvne : vals ≠ [] := by
    obtain ⟨p, hp⟩ := List.exists_mem_of_ne_nil _ hne
    have := hix p (hl p hp)
    intro h
    rw [h, ha, List.length_nil] at h2
    omega
  obtain ⟨i, hi, hd, hmax⟩ := C77_gibbs_zero ch hch r vals hvne
  have hval : ∀ q ∈ legals, vals.getD (q.1 * n + q.2) 0 = a.getD (q.1 * n + q.2) 0 := fun q hq => by
    rw [h3, if_pos (List.mem_map.2 ⟨q, hq, rfl⟩)]
  have hnn : ∀ q ∈ legals, 0 ≤ a.getD (q.1 * n + q.2) 0 := fun q hq => by
    have := hix q (hl q hq)
    rw [← ha] at this
    rw [List.getD_eq_getElem?_getD, List.getElem?_eq_getElem this]
    exact h0 _ (List.getElem_mem this)
  have hle : ∀ q ∈ legals, a.getD (q.1 * n + q.2) 0 ≤ vals.getD i 0 := fun q hq => by
    have hlt : q.1 * n + q.2 < vals.length := by rw [h2, ha]; exact hix q (hl q hq)
    rw [← hval q hq, List.getD_eq_getElem?_getD, List.getElem?_eq_getElem hlt, List.getD_eq_getElem?_getD, List.getElem?_eq_getElem hi]
    exact hmax _ (List.getElem_mem hlt)
  -- the chosen index belongs to a legal position
  have hmem : i ∈ legals.map (fun p => p.1 * n + p.2) := by
    by_contra hcon
    obtain ⟨q, hq⟩ := List.exists_mem_of_ne_nil _ hne
    have hq1 := hle q hq
    rw [h3, if_neg hcon] at hq1
    have hq2 := hnn q hq
    have e : (List.replicate a.length (-100 * (1 + 0) : ℝ)).getD i 0 = -100 * (1 + 0) := by
      rw [List.getD_eq_getElem?_getD, List.getElem?_replicate, if_pos (h2 ▸ hi)]; rfl
    rw [e] at hq1
    linarith
  obtain ⟨p, hp, rfl⟩ := List.mem_map.1 hmem
  have hpt := hl p hp
  have hn : 0 < n := lt_of_le_of_lt (Nat.zero_le _) hpt.1
  have hdec : ((p.1 * n + p.2) / n, (p.1 * n + p.2) % n) = p := by
    rw [Nat.mul_comm, Nat.mul_add_div hn, Nat.mul_add_mod, Nat.div_eq_of_lt hpt.2, Nat.mod_eq_of_lt hpt.2]
    simp
  refine ⟨p, ?_, hp, fun q hq => ?_⟩
  · classical
    unfold legalizeIt
    rw [if_neg (by rintro ⟨v, hv, hv0⟩; exact absurd hv0 (not_lt.2 (h0 v hv)))]
    simp only [h1, hd]
    rw [hdec, if_pos hp]
  · rw [← hval p hp]; exact hle q hq

/-- **C129, deciding players that are not greedy (the default)** choose a legal position except with a probability of at most `e⁻⁴⁰` for each point of the board. -/
theorem C129_gibbs_partial (n : Nat) (legals : List Pos) (hl : ∀ p ∈ legals, Point n p) (hne : legals ≠ []) (a : List ℝ) (ha : a.length = n * n)
    (h0 : ∀ v ∈ a, 0 ≤ v) (ch : Nat → Nat) (temperature : ℝ) (ht : 0 < temperature) :
    MeasureTheory.volume {r : ℝ | 0 ≤ r ∧ r < 1 ∧ ¬ ∃ p ∈ legals, legalizeIt ch r n legals a temperature = .ok p} ≤
      (n * n : ℕ) * ENNReal.ofReal (Real.exp (-40)) := by
  have hix : ∀ p : Pos, Point n p → p.1 * n + p.2 < n * n := fun p hp => by
    have := Nat.mul_le_mul_right n (show p.1 + 1 ≤ n from hp.1)
    have := hp.2
    rw [Nat.add_mul] at *
    omega
  obtain ⟨vals, h1, h2, h3⟩ := fillVals_spec n a legals (List.replicate a.length (-100 * (1 + temperature))) (by simp) (fun p hp => ha ▸ hix p (hl p hp))
  obtain ⟨q, hq⟩ := List.exists_mem_of_ne_nil _ hne
  have hqi := hix q (hl q hq)
  have hvne : vals ≠ [] := by
    intro h
    rw [h, ha, List.length_nil] at h2
    omega
  obtain ⟨m, hm⟩ : ∃ m, Draw.IsMax (vals.map fun v => v / temperature) m := ⟨_, Draw.isMax_foldr _ (by simpa using hvne)⟩
  -- the largest value is not negative
  have hm0 : 0 ≤ m := by
    have hlt : q.1 * n + q.2 < vals.length := by rw [h2, ha]; exact hqi
    have hlt' : q.1 * n + q.2 < a.length := by rw [ha]; exact hqi
    have e := h3 (q.1 * n + q.2)
    rw [if_pos (List.mem_map.2 ⟨q, hq, rfl⟩), List.getD_eq_getElem?_getD, List.getElem?_eq_getElem hlt, List.getD_eq_getElem?_getD,
      List.getElem?_eq_getElem hlt'] at e
    simp only [Option.getD_some] at e
    refine le_trans (div_nonneg ?_ ht.le) (hm.2 _ (List.mem_map.2 ⟨_, List.getElem_mem hlt, rfl⟩))
    rw [e]
    exact h0 _ (List.getElem_mem hlt')
  have hsum : 1 ≤ (vals.map fun v => Real.exp (max (v / temperature - m) (-40))).sum := by
    obtain ⟨v, hv, hvm⟩ := List.mem_map.1 hm.1
    have := List.single_le_sum (l := vals.map fun v => Real.exp (max (v / temperature - m) (-40)))
      (fun x hx => by obtain ⟨w, _, rfl⟩ := List.mem_map.1 hx; exact (Real.exp_pos _).le) _ (List.mem_map.2 ⟨v, hv, rfl⟩)
    rw [hvm, sub_self, max_eq_left (by norm_num), Real.exp_zero] at this
    exact this
  have hone : ∀ i, i < n * n → i ∉ legals.map (fun p => p.1 * n + p.2) →
      MeasureTheory.volume {r : ℝ | 0 ≤ r ∧ r < 1 ∧ Draw.drawGibbs ch r vals temperature = .ok i} ≤ ENNReal.ofReal (Real.exp (-40)) := by
    intro i hi hni
    have hlt : i < vals.length := by rw [h2, ha]; exact hi
    rw [C77_gibbs ch vals temperature m ht.ne' hm i hlt]
    refine ENNReal.ofReal_le_ofReal ?_
    have hv : vals[i] = -100 * (1 + temperature) := by
      have e := h3 i
      rw [if_neg hni, List.getD_eq_getElem?_getD, List.getElem?_eq_getElem hlt, List.getD_eq_getElem?_getD, List.getElem?_replicate,
        if_pos (by rw [ha]; exact hi)] at e
      exact e
    rw [hv, max_eq_right]
    · exact div_le_self (Real.exp_pos _).le hsum
    · have : -100 * (1 + temperature) / temperature ≤ -100 := by
        rw [div_le_iff₀ ht]; linarith
      linarith
  have htotal : ∀ r : ℝ, 0 ≤ r → r < 1 → ∃ i < n * n, Draw.drawGibbs ch r vals temperature = .ok i := by
    intro r hr hr1
    have hw := Draw.gibbsWeights_eq vals temperature m hm
    have hpos := Draw.sum_weight_pos vals hvne m temperature
    have hnn : ∀ x ∈ Draw.gibbsWeights vals temperature, 0 ≤ x := by
      intro x hx
      rw [hw] at hx
      obtain ⟨v, _, rfl⟩ := List.mem_map.1 hx
      exact div_nonneg (Real.exp_pos _).le hpos.le
    have hs1 : (Draw.gibbsWeights vals temperature).sum = 1 := by
      rw [hw]
      simp only [div_eq_mul_inv]
      rw [List.sum_map_mul_right, mul_inv_cancel₀ hpos.ne']
    have hlen : (Draw.gibbsWeights vals temperature).length = n * n := by rw [hw, List.length_map, h2, ha]
    cases hd : Draw.drawLoop r (Draw.gibbsWeights vals temperature) 0 0 with
    | none => exact absurd hd (Draw.drawLoop_none r _ hnn hr (by rw [hs1]; exact hr1))
    | some i =>
      have hi := ((Draw.drawLoop_some r _ hnn hr i).1 hd).1
      refine ⟨i, hlen ▸ hi, ?_⟩
      unfold Draw.drawGibbs
      rw [if_neg hvne, if_neg ht.ne']
      unfold Draw.drawIndex
      rw [if_neg (by rw [hs1]; norm_num)]
      simp only [Draw.drawFrom, hd]
  classical
  have hsub : {r : ℝ | 0 ≤ r ∧ r < 1 ∧ ¬ ∃ p ∈ legals, legalizeIt ch r n legals a temperature = .ok p} ⊆
      ⋃ i ∈ (Finset.range (n * n)).filter (fun i => i ∉ legals.map (fun p => p.1 * n + p.2)),
        {r : ℝ | 0 ≤ r ∧ r < 1 ∧ Draw.drawGibbs ch r vals temperature = .ok i} := by
    rintro r ⟨hr, hr1, hno⟩
    obtain ⟨i, hi, hd⟩ := htotal r hr hr1
    simp only [Set.mem_iUnion]
    refine ⟨i, Finset.mem_filter.2 ⟨Finset.mem_range.2 hi, fun hmem => hno ?_⟩, hr, hr1, hd⟩
    obtain ⟨p, hp, rfl⟩ := List.mem_map.1 hmem
    have hpt := hl p hp
    have hn : 0 < n := lt_of_le_of_lt (Nat.zero_le _) hpt.1
    have hdec : ((p.1 * n + p.2) / n, (p.1 * n + p.2) % n) = p := by
      rw [Nat.mul_comm, Nat.mul_add_div hn, Nat.mul_add_mod, Nat.div_eq_of_lt hpt.2, Nat.mod_eq_of_lt hpt.2]
      simp
    refine ⟨p, hp, ?_⟩
    unfold legalizeIt
    rw [if_neg (by rintro ⟨v, hv, hv0⟩; exact absurd hv0 (not_lt.2 (h0 v hv)))]
    simp only [h1, hd]
    rw [hdec, if_pos hp]
  refine le_trans (MeasureTheory.measure_mono hsub) (le_trans (MeasureTheory.measure_biUnion_finset_le _ _) ?_)
  refine le_trans (Finset.sum_le_card_nsmul _ _ (ENNReal.ofReal (Real.exp (-40))) fun i hi => ?_) ?_
  · obtain ⟨h4, h5⟩ := Finset.mem_filter.1 hi
    exact hone i (Finset.mem_range.1 h4) h5
  · rw [nsmul_eq_mul]
    refine mul_le_mul_left (Nat.cast_le.2 (le_trans (Finset.card_filter_le _ _) (by simp))) _

/-- **C129 violated: deciding players that are not greedy (the default)** can fail with an AssertionError: as soon as one point is occupied, there is a
positive probability that an illegal position is drawn (in exact arithmetic, and very small by `C129_gibbs_partial`: a matter of principle). -/
theorem C129_negation_gibbs (n : Nat) (legals : List Pos) (hl : ∀ p ∈ legals, Point n p) (a : List ℝ) (ha : a.length = n * n) (h0 : ∀ v ∈ a, 0 ≤ v)
    (ch : Nat → Nat) (temperature : ℝ) (ht : 0 < temperature) (p : Pos) (hp : Point n p) (hill : p ∉ legals) :
    0 < MeasureTheory.volume {r : ℝ | 0 ≤ r ∧ r < 1 ∧ legalizeIt ch r n legals a temperature = .error .assertion} := by
  have hix : ∀ p : Pos, Point n p → p.1 * n + p.2 < n * n := fun p hp => by
    have := Nat.mul_le_mul_right n (show p.1 + 1 ≤ n from hp.1)
    have := hp.2
    rw [Nat.add_mul] at *
    omega
  obtain ⟨vals, h1, h2, h3⟩ := fillVals_spec n a legals (List.replicate a.length (-100 * (1 + temperature))) (by simp) (fun p hp => ha ▸ hix p (hl p hp))
  have hlt : p.1 * n + p.2 < vals.length := by rw [h2, ha]; exact hix p hp
  have hpos := (C77_gibbs_order ch vals temperature ht _ _ hlt hlt le_rfl).2
  refine lt_of_lt_of_le hpos (MeasureTheory.measure_mono ?_)
  rintro r ⟨hr1, hr2, hr3⟩
  refine ⟨hr1, hr2, ?_⟩
  have hn : 0 < n := lt_of_le_of_lt (Nat.zero_le _) hp.1
  have hdec : ((p.1 * n + p.2) / n, (p.1 * n + p.2) % n) = p := by
    rw [Nat.mul_comm, Nat.mul_add_div hn, Nat.mul_add_mod, Nat.div_eq_of_lt hp.2, Nat.mod_eq_of_lt hp.2]
    simp
  classical
  unfold legalizeIt
  rw [if_neg (by rintro ⟨v, hv, hv0⟩; exact absurd hv0 (not_lt.2 (h0 v hv)))]
  simp only [h1, hr3]
  rw [hdec, if_neg hill]

/-- **C129 violated: Go-Moku on wide boards.** The indices are computed with the number of rows: positions in a column beyond it are never chosen, whatever the
module says. -/
theorem C129_negation_wide (rows : Nat) (hr : 0 < rows) (legals : List Pos) (a : List ℝ) (temperature : ℝ) (ch : Nat → Nat) (r : ℝ) (p : Pos)
    (h : legalizeIt ch r rows legals a temperature = .ok p) : p.2 < rows := by
  classical
  unfold legalizeIt at h
  split_ifs at h
  split at h
  · simp at h
  · split at h
    · simp at h
    · split_ifs at h
      obtain rfl := Except.ok.inj h
      exact Nat.mod_lt _ hr

/-- **C129 violated: Go-Moku on tall boards.** If there are more rows than columns and the last point is empty, every move raises an IndexError. -/
theorem C129_negation_tall (rows cols : Nat) (hc : 2 ≤ cols) (h : cols < rows) (legals : List Pos) (hl : (rows - 1, cols - 1) ∈ legals) (a : List ℝ)
    (ha : a.length = rows * cols) (h0 : ∀ v ∈ a, 0 ≤ v) (temperature : ℝ) (ch : Nat → Nat) (r : ℝ) :
    legalizeIt ch r rows legals a temperature = .error .indexError := by
  have hfill : ∀ (ps : List Pos) (vals : List ℝ), (rows - 1, cols - 1) ∈ ps → fillVals rows a ps vals = .error .indexError := by
    intro ps
    induction ps with
    | nil => simp
    | cons p ps ih =>
      intro vals hm
      rw [fillVals]
      split_ifs with hlt
      · rcases List.mem_cons.1 hm with he | he
        · exfalso
          rw [← he, ha] at hlt
          obtain ⟨k, rfl⟩ : ∃ k, rows = cols + 1 + k := ⟨rows - cols - 1, by omega⟩
          obtain ⟨m, rfl⟩ : ∃ m, cols = m + 2 := ⟨cols - 2, by omega⟩
          have e1 : m + 2 + 1 + k - 1 = m + 2 + k := by omega
          have e2 : m + 2 - 1 = m + 1 := by omega
          rw [e1, e2] at hlt
          nlinarith
        · exact ih _ he
      · rfl
  classical
  unfold legalizeIt
  rw [if_neg (by rintro ⟨v, hv, hv0⟩; exact absurd hv0 (not_lt.2 (h0 v hv)))]
  simp only [hfill legals _ hl]

/-- a game with a capture for white: black (0,0), white (0,1); then black can take white's stone at (1,1) -/
example : ∃ g, Reached 2 true g ∧ g.winner = none ∧ getKilling g .black = .ok [(1, 1)] ∧ killingPlayer (fun _ => 0) g .black = .ok (1, 1) :=
  ⟨_, ⟨shortGame, rfl⟩, rfl, by rfl, by rfl⟩

example : Sane 3 (fun _ g => nonSuicidePlayer (fun _ => 0) g .black) := by
  intro t g hr hw
  obtain ⟨pos, h1, h2, h3, _⟩ := (C129_careful 3 (by decide) true g hr hw .black (fun _ => 0) (fun n h => h)).2
  exact ⟨pos, h1, h2, h3⟩

end Verif.Props
