import Verif.Lemmas.CaptureGame
import Mathlib.Data.Finset.Basic
/-
Property theorems C33, pybrain/rl/environments/twoplayergames/capturegame.py.
-/
namespace Verif.Props
open Verif.DataSet (Err)
open Verif.Capture Verif.Capture.Spec

/-- what a move does to an undecided game, by the rules of the board -/
theorem capture_doMove {g : Game} (hI : Inv g) (c : Color) (pos : Pos) :
    (¬ (Point g.size pos ∧ g.b pos = .empty) → doMove g c (.at pos) = .ok ({ g with movesDone := g.movesDone + 1 }, false)) ∧
    (Point g.size pos ∧ g.b pos = .empty → Suicide g.size g.b c pos → doMove g c (.at pos) =
      if g.suicideenabled then .ok ({ g with movesDone := g.movesDone + 1, b := upd g.b pos .mark, winner := some c.opp }, true)
      else .ok ({ g with movesDone := g.movesDone + 1 }, false)) ∧
    (Point g.size pos ∧ g.b pos = .empty → Captures g.size g.b c pos → doMove g c (.at pos) =
      .ok ({ g with movesDone := g.movesDone + 1, b := upd g.b pos .mark, winner := some c }, true)) ∧
    (Point g.size pos ∧ g.b pos = .empty → ¬ Suicide g.size g.b c pos → ¬ Captures g.size g.b c pos →
      ∃ g', doMove g c (.at pos) = .ok (g', true) ∧ Inv g' ∧ g'.b = place g.b c pos ∧ g'.size = g.size ∧
        g'.suicideenabled = g.suicideenabled ∧ g'.movesDone = g.movesDone + 1 ∧ g'.winner = g.winner) := by
  have hI' : Inv { g with movesDone := g.movesDone + 1 } := ⟨hI.groups_iff, hI.same, hI.libs, hI.ids, hI.clean, hI.alive⟩
  refine ⟨fun h => ?_, fun h hs => ?_, fun h hc => ?_, fun h hs hc => ?_⟩
  · by_cases h1 : Point g.size pos
    · have h2 : ¬ g.b pos = .empty := fun e => h ⟨h1, e⟩
      have h3 := (onBoard_iff g.size pos).2 h1
      simp [doMove, isLegal, h3, h2]
    · have h3 : onBoard g.size pos = false := by
        cases hb : onBoard g.size pos with
        | false => rfl
        | true => exact absurd ((onBoard_iff g.size pos).1 hb) h1
      simp [doMove, isLegal, h3]
  · obtain ⟨r, hr, hiff⟩ := suicide_spec hI' (c := c) h.1 h.2
    have hrt := hiff.2 hs
    subst hrt
    have h3 := (onBoard_iff g.size pos).2 h.1
    cases hse : g.suicideenabled with
    | true => rw [hse] at hr; simp [doMove, isLegal, h3, h.2, doLegal, hr, hse]
    | false => rw [hse] at hr; simp [doMove, isLegal, h3, h.2, hr, hse, Except.map]
  · obtain ⟨r, hr, hiff⟩ := suicide_spec hI' (c := c) h.1 h.2
    obtain ⟨r2, hr2, hiff2⟩ := capture_spec hI' (c := c) h.1 h.2
    have hrt : r = false := by
      cases r with
      | false => rfl
      | true => exact absurd hc (hiff.1 rfl).2
    have hr2t := hiff2.2 hc
    subst hrt hr2t
    have h3 := (onBoard_iff g.size pos).2 h.1
    cases hse : g.suicideenabled with
    | true => rw [hse] at hr hr2; simp [doMove, isLegal, h3, h.2, doLegal, hr, hr2, hse]
    | false => rw [hse] at hr hr2; simp [doMove, isLegal, h3, h.2, hr, doLegal, hr2, hse, Except.map]
  · obtain ⟨r, hr, hiff⟩ := suicide_spec hI' (c := c) h.1 h.2
    obtain ⟨r2, hr2, hiff2⟩ := capture_spec hI' (c := c) h.1 h.2
    have hrt : r = false := by
      cases r with
      | false => rfl
      | true => exact absurd (hiff.1 rfl) hs
    have hr2t : r2 = false := by
      cases r2 with
      | false => rfl
      | true => exact absurd (hiff2.1 rfl) hc
    subst hrt hr2t
    have h3 := (onBoard_iff g.size pos).2 h.1
    have halive : (Spec.liberties g.size (place g.b c pos) pos).Nonempty := by
      rw [Set.nonempty_iff_ne_empty]
      intro he
      exact hs ⟨he, hc⟩
    obtain ⟨g', hg', hinv, e1, e2, e3, e4, e5⟩ := setStone_inv hI' (c := c) h.1 h.2 halive hc
    refine ⟨g', ?_, hinv, e1, e2, e3, e4, e5⟩
    cases hse : g.suicideenabled with
    | true =>
      rw [hse] at hg' hr hr2
      simp [doMove, isLegal, h3, h.2, doLegal, hr, hr2, hse, hg', Except.map]
    | false =>
      rw [hse] at hg' hr hr2
      simp [doMove, isLegal, h3, h.2, doLegal, hr, hr2, hse, hg', Except.map]

/-- positions of games played with `doMove` from the empty board -/
def Reached (size : Nat) (suicideenabled : Bool) (g : Game) : Prop := ∃ ms, play (newGame size suicideenabled) ms = .ok g

theorem doMove_winner_mono {g g' : Game} {c : Color} {m : Move} {r : Bool} (h : doMove g c m = .ok (g', r)) (hw : g'.winner = none) :
    g.winner = none := by
  cases m with
  | resign => simp [doMove] at h; rw [← h.1] at hw; simp at hw
  | «at» pos =>
    simp only [doMove] at h
    split at h
    · simp at h
    · simp at h; rw [← h.1] at hw; exact hw
    · simp only [doLegal] at h
      split at h
      · simp at h
      · split at h
        · simp at h; rw [← h.1] at hw; simp at hw
        · simp at h
      · split at h
        · simp at h
        · simp at h; rw [← h.1] at hw; simp at hw
        · simp only [setStone] at h
          split at h
          · simp [Except.map] at h
          · simp [Except.map] at h; rw [← h.1] at hw; exact hw

theorem doMove_inv {g g' : Game} {c : Color} {m : Move} {r : Bool} (hI : Inv g) (h : doMove g c m = .ok (g', r)) (hw : g'.winner = none) :
    Inv g' ∧ g'.size = g.size ∧ g'.suicideenabled = g.suicideenabled ∧ g'.movesDone = g.movesDone + 1 := by
  cases m with
  | resign => simp [doMove] at h; rw [← h.1] at hw; simp at hw
  | «at» pos =>
    obtain ⟨h1, h2, h3, h4⟩ := capture_doMove hI c pos
    by_cases he : Point g.size pos ∧ g.b pos = .empty
    · by_cases hs : Suicide g.size g.b c pos
      · rw [h2 he hs] at h
        split at h
        · simp at h; rw [← h.1] at hw; simp at hw
        · simp at h; rw [← h.1]; exact ⟨⟨hI.groups_iff, hI.same, hI.libs, hI.ids, hI.clean, hI.alive⟩, rfl, rfl, rfl⟩
      · by_cases hc : Captures g.size g.b c pos
        · rw [h3 he hc] at h
          simp at h; rw [← h.1] at hw; simp at hw
        · obtain ⟨g'', e1, e2, e3, e4, e5, e6, e7⟩ := h4 he hs hc
          rw [e1] at h
          simp at h
          rw [← h.1]
          exact ⟨e2, e4, e5, e6⟩
    · rw [h1 he] at h
      simp at h; rw [← h.1]; exact ⟨⟨hI.groups_iff, hI.same, hI.libs, hI.ids, hI.clean, hI.alive⟩, rfl, rfl, rfl⟩

theorem play_winner_mono : ∀ (ms : List (Color × Move)) (g g' : Game), play g ms = .ok g' → g'.winner = none → g.winner = none := by
  intro ms
  induction ms with
  | nil => intro g g' h hw; simp [play] at h; subst h; exact hw
  | cons cm ms ih =>
    intro g g' h hw
    obtain ⟨c, m⟩ := cm
    rw [play] at h
    cases hd : doMove g c m with
    | error e => rw [hd] at h; simp at h
    | ok r =>
      obtain ⟨g1, b⟩ := r
      rw [hd] at h
      simp only at h
      exact doMove_winner_mono hd (ih g1 g' h hw)

theorem play_inv : ∀ (ms : List (Color × Move)) (g g' : Game), Inv g → play g ms = .ok g' → g'.winner = none →
    Inv g' ∧ g'.size = g.size ∧ g'.suicideenabled = g.suicideenabled ∧ g'.movesDone = g.movesDone + ms.length := by
  intro ms
  induction ms with
  | nil => intro g g' hI h _; simp [play] at h; subst h; exact ⟨hI, rfl, rfl, by simp⟩
  | cons cm ms ih =>
    intro g g' hI h hw
    obtain ⟨c, m⟩ := cm
    rw [play] at h
    cases hd : doMove g c m with
    | error e => rw [hd] at h; simp at h
    | ok r =>
      obtain ⟨g1, b⟩ := r
      rw [hd] at h
      simp only at h
      obtain ⟨i1, i2, i3, i4⟩ := doMove_inv hI hd (play_winner_mono ms g1 g' h hw)
      obtain ⟨j1, j2, j3, j4⟩ := ih g1 g' i1 h hw
      exact ⟨j1, j2.trans i2, j3.trans i3, by rw [j4, i4, List.length_cons]; omega⟩

theorem reached_inv {size : Nat} {se : Bool} {g : Game} (h : Reached size se g) (hw : g.winner = none) :
    Inv g ∧ g.size = size ∧ g.suicideenabled = se := by
  obtain ⟨ms, h⟩ := h
  obtain ⟨h1, h2, h3, _⟩ := play_inv ms _ g (inv_new size se) h hw
  exact ⟨h1, h2, h3⟩

theorem mem_iterPos (size : Nat) (p : Pos) : p ∈ iterPos size ↔ Point size p := by
  obtain ⟨a, b⟩ := p
  simp [iterPos, Point]

theorem iterPos_nodup (size : Nat) : (iterPos size).Nodup := by
  unfold iterPos
  rw [List.nodup_flatMap]
  refine ⟨fun x _ => List.nodup_range.map (fun a b h => by simpa using h), ?_⟩
  refine (List.nodup_range (n := size)).imp ?_
  intro a b hab x hx hy
  simp only [List.mem_map] at hx hy
  obtain ⟨y, _, rfl⟩ := hx
  obtain ⟨z, _, h⟩ := hy
  exact hab (by simpa using (congrArg Prod.fst h).symm)

/-- **C33, bookkeeping.** In every undecided game reached by any moves (of any players in any order, illegal attempts included) on a
board of any size, for every stone: `getLiberties` is the number of liberties of its group, which is never zero, and `getGroupSize`
is the number of stones connected to it. Empty points have neither. -/
theorem C33_bookkeeping (size : Nat) (se : Bool) (g : Game) (h : Reached size se g) (hw : g.winner = none) (p : Pos) (hp : Point size p) :
    (g.b p = .empty → getLiberties g p = .ok none ∧ getGroupSize g p = .ok none) ∧
    (g.b p ≠ .empty → Stone g.b p ∧ getLiberties g p = .ok (some (Spec.liberties size g.b p).ncard) ∧
      getGroupSize g p = .ok (some (Spec.group size g.b p).ncard) ∧ (Spec.liberties size g.b p).Nonempty) := by
  obtain ⟨hI, rfl, _⟩ := reached_inv h hw
  refine ⟨fun he => by simp [getLiberties, getGroupSize, he], fun he => ?_⟩
  have hs : Stone g.b p := by
    rcases hI.clean p with h | h
    · exact absurd h he
    · exact h.2
  obtain ⟨L, hL, hmem⟩ := hI.libertiesAt_ok hp hs
  obtain ⟨k, hk⟩ := hI.stone_group hp hs
  refine ⟨hs, ?_, ?_, hI.alive p hp hs⟩
  · have hset : Spec.liberties g.size g.b p = (L : Set Pos) := by ext e; exact (hmem e).symm
    rw [hset, Set.ncard_coe_finset]
    simp [getLiberties, he, hL, Except.map]
  · have hset : Spec.group g.size g.b p = (((iterPos g.size).filter (fun q => decide (g.groups q = some k))).toFinset : Set Pos) := by
      ext q
      simp only [Spec.group, Set.mem_setOf_eq, List.coe_toFinset, List.mem_filter, decide_eq_true_eq]
      rw [← hI.same p k hk q]
      constructor
      · intro hq; exact ⟨(mem_iterPos _ _).2 (hI.group_stone hq).1, hq⟩
      · exact fun h => h.2
    rw [hset, Set.ncard_coe_finset, List.toFinset_card_of_nodup ((iterPos_nodup _).filter _)]
    simp [getGroupSize, he, hk]

/-- **C33, moves.** What `doMove` does in such a game, told by the rules: a point that is occupied or off the board is refused; a
suicide loses (or is refused if disabled); a capture wins; any other move puts the stone and leaves the game undecided. No move ever
raises an exception. -/
theorem C33_moves (size : Nat) (se : Bool) (g : Game) (h : Reached size se g) (hw : g.winner = none) (c : Color) (pos : Pos) :
    (¬ (Point size pos ∧ g.b pos = .empty) → ∃ g', doMove g c (.at pos) = .ok (g', false) ∧ g'.b = g.b ∧ g'.winner = none) ∧
    (Point size pos ∧ g.b pos = .empty →
      (Suicide size g.b c pos → if se then ∃ g', doMove g c (.at pos) = .ok (g', true) ∧ g'.winner = some c.opp
        else ∃ g', doMove g c (.at pos) = .ok (g', false) ∧ g'.b = g.b ∧ g'.winner = none) ∧
      (Captures size g.b c pos → ∃ g', doMove g c (.at pos) = .ok (g', true) ∧ g'.winner = some c) ∧
      (¬ Suicide size g.b c pos → ¬ Captures size g.b c pos →
        ∃ g', doMove g c (.at pos) = .ok (g', true) ∧ g'.b = place g.b c pos ∧ g'.winner = none)) := by
  obtain ⟨hI, rfl, rfl⟩ := reached_inv h hw
  obtain ⟨h1, h2, h3, h4⟩ := capture_doMove hI c pos
  refine ⟨fun he => ⟨_, h1 he, rfl, hw⟩, fun he => ⟨fun hs => ?_, fun hc => ⟨_, h3 he hc, rfl⟩, fun hs hc => ?_⟩⟩
  · have := h2 he hs
    cases hse : g.suicideenabled with
    | true =>
      simp only [hse, if_true] at this ⊢
      exact ⟨_, this, rfl⟩
    | false =>
      simp only [hse, Bool.false_eq_true, if_false] at this ⊢
      exact ⟨_, this, rfl, hw⟩
  · obtain ⟨g', e1, _, e3, _, _, _, e7⟩ := h4 he hs hc
    exact ⟨g', e1, e3, e7.trans hw⟩

/-- **C33, judgements.** `_capture` and `_suicide` (and so `isLegal`, `getAcceptable`, `getKilling`) decide the rules' notions. -/
theorem C33_judgements (size : Nat) (se : Bool) (g : Game) (h : Reached size se g) (hw : g.winner = none) (c : Color) (pos : Pos)
    (hp : Point size pos) (he : g.b pos = .empty) :
    (∃ r, capture g c pos = .ok r ∧ (r = true ↔ Captures size g.b c pos)) ∧
    (∃ r, suicide g c pos = .ok r ∧ (r = true ↔ Suicide size g.b c pos)) := by
  obtain ⟨hI, rfl, _⟩ := reached_inv h hw
  exact ⟨capture_spec hI hp he, suicide_spec hI hp he⟩

/-- a played game: black (0,0), white (0,1), black (1,1) on a 2×2 board; the last move captures white's stone -/
def shortGame : List (Color × Move) := [(.black, .at (0, 0)), (.white, .at (0, 1))]

example : ∃ g, play (newGame 2 true) shortGame = .ok g ∧ g.winner = none ∧ g.b (0, 1) = .white ∧ getLiberties g (0, 1) = .ok (some 1) :=
  ⟨_, rfl, rfl, rfl, by decide⟩

/-- **C33 after the end: violated.** The deciding move marks its point without updating the bookkeeping: a captured stone is still
reported to have a liberty, although no empty point is next to it. -/
theorem C33_negation_after_end : ∃ g, play (newGame 2 true) (shortGame ++ [(.black, .at (1, 1))]) = .ok g ∧ g.winner = some .black ∧
    getLiberties g (0, 1) = .ok (some 1) ∧ Spec.liberties 2 g.b (0, 1) = ∅ := by
  refine ⟨_, rfl, rfl, by decide, ?_⟩
  rw [Set.eq_empty_iff_forall_notMem]
  rintro ⟨e1, e2⟩ ⟨⟨h1, h2⟩, h3, ⟨q1, q2⟩, h4, h5⟩
  have hq : q1 = 0 ∧ q2 = 1 := by
    rcases conn_color h4 with h | ⟨_, h, _, hq⟩
    · simp at h; exact ⟨h.1.symm, h.2.symm⟩
    · obtain ⟨k1, k2⟩ := hq
      simp only at k1 k2
      have k1' : q1 = 0 ∨ q1 = 1 := by omega
      have k2' : q2 = 0 ∨ q2 = 1 := by omega
      rcases k1' with rfl | rfl <;> rcases k2' with rfl | rfl
      · exact absurd h (by decide)
      · exact ⟨rfl, rfl⟩
      · exact absurd h (by decide)
      · exact absurd h (by decide)
  obtain ⟨rfl, rfl⟩ := hq
  simp only at h1 h2
  have k1' : e1 = 0 ∨ e1 = 1 := by omega
  have k2' : e2 = 0 ∨ e2 = 1 := by omega
  rcases k1' with rfl | rfl <;> rcases k2' with rfl | rfl
  · exact absurd h3 (by decide)
  · exact absurd h3 (by decide)
  · simp [Adj] at h5
  · exact absurd h3 (by decide)

end Verif.Props
