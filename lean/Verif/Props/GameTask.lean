import Verif.Spec.GameTask
import Verif.Props.CaptureGame
import Verif.Props.Gomoku
import Mathlib.Algebra.BigOperators.Intervals
import Mathlib.Tactic.Linarith
import Mathlib.Tactic.Ring
import Mathlib.Tactic.FieldSimp
/-
Property theorems C104: tasks of winning capture games, Go-Moku and Pente against an opponent.
-/
namespace Verif.GameTask
open Verif.DataSet (Err)
open Verif.Capture (Color)
open Verif.Gomoku (Result)
open Verif.GameTask.Spec

variable {σ M K : Type} [Field K] [LinearOrder K]

/-- the state after any number of moves of a game in which the opponent plays `c` -/
def After (env : Env σ M) (cfg : Cfg K) (c : Color) (s : St σ K) : Prop :=
  match env.winner s.env with
  | none => s.color = c ∧ s.switched = false ∧ s.cum = 0
  | some r => s.color = turn cfg.alternateStarting c 1 ∧ s.switched = cfg.alternateStarting ∧
      s.cum = value cfg c.opp (env.moves s.env) r

theorem isFinished_after {env : Env σ M} {cfg : Cfg K} {c : Color} {s : St σ K} (h : After env cfg c s) :
    isFinished env cfg s = ((env.winner s.env).isSome, s) := by
  unfold After at h
  unfold isFinished
  cases hw : env.winner s.env with
  | none => simp
  | some r =>
    rw [hw] at h
    obtain ⟨_, h2, _⟩ := h
    cases ha : cfg.alternateStarting <;> simp [h2, ha]

theorem opp_opp (c : Color) : c.opp.opp = c := by cases c <;> rfl

theorem opp_ne (c : Color) : c.opp ≠ c := by cases c <;> decide

theorem eq_opp {c d : Color} : d = c.opp ↔ d ≠ c := by cases c <;> cases d <;> decide

theorem getReward_after {env : Env σ M} {cfg : Cfg K} {c : Color} {s : St σ K} (hm : cfg.maxmoves - cfg.minmoves ≠ 0)
    (h : After env cfg c s) : ∃ r, getReward env cfg s = .ok (r, s) := by
  unfold getReward
  rw [isFinished_after h]
  cases hw : env.winner s.env with
  | none => exact ⟨0, rfl⟩
  | some r =>
    cases r with
    | draw => exact ⟨0, by simp [hw]⟩
    | won d => exact ⟨_, by simp [hw, hm]; rfl⟩

theorem epPerform_live {env : Env σ M} {cfg : Cfg K} {c d : Color} {m : M} {s : St σ K} {g : σ} (hm : cfg.maxmoves - cfg.minmoves ≠ 0)
    (h1 : s.color = c) (h2 : s.switched = false) (h3 : s.cum = 0) (hp : env.perform s.env d m = .ok g) :
    ∃ s', epPerform env cfg s d m = .ok s' ∧ s'.env = g ∧ After env cfg c s' := by
  obtain ⟨e, col, sw, cum⟩ := s
  simp only at h1 h2 h3 hp
  subst h1 h2 h3
  unfold epPerform
  simp only [hp]
  unfold getReward isFinished
  cases hw : env.winner g with
  | none =>
    refine ⟨{ env := g, color := col, switched := false, cum := 0 + 0 }, by simp, rfl, ?_⟩
    simp [After, hw]
  | some r =>
    cases ha : cfg.alternateStarting with
    | false =>
      cases r with
      | draw =>
        refine ⟨{ env := g, color := col, switched := false, cum := 0 + 0 }, by simp [hw], rfl, ?_⟩
        simp [After, hw, ha, turn, value]
      | won w =>
        refine ⟨{ env := g, color := col, switched := false, cum := 0 + _ }, by simp [hw, hm]; rfl, rfl, ?_⟩
        simp only [After, hw, ha, turn, value]
        by_cases hwc : w = col
        · subst hwc
          simp [(opp_ne w).symm]
        · rw [eq_opp.2 hwc]; simp [opp_ne]
    | true =>
      cases r with
      | draw =>
        refine ⟨{ env := g, color := col.opp, switched := true, cum := 0 + 0 }, by simp [hw], rfl, ?_⟩
        simp [After, hw, ha, turn, value]
      | won w =>
        refine ⟨{ env := g, color := col.opp, switched := true, cum := 0 + _ }, by simp [hw, hm]; rfl, rfl, ?_⟩
        simp only [After, hw, ha, turn, value]
        by_cases hwc : w = col.opp
        · simp [hwc]
        · simp [hwc]

theorem after_live {env : Env σ M} {cfg : Cfg K} {c : Color} {s : St σ K} (h : After env cfg c s) (hw : env.winner s.env = none) :
    s.color = c ∧ s.switched = false ∧ s.cum = 0 := by
  unfold After at h; rw [hw] at h; exact h

/-- the interactions play the rest of the game -/
theorem interactions_course {env : Env σ M} {cfg : Cfg K} (hm : cfg.maxmoves - cfg.minmoves ≠ 0) (agent opp : σ → M) (c : Color) :
    ∀ (fuel n : Nat) (s : St σ K) (t : σ), n < fuel → After env cfg c s → Course env (seats c opp agent) c.opp s.env n t →
      (env.winner t).isSome → ∃ s', interactions env cfg agent opp c.opp fuel s = some (.ok s') ∧ s'.env = t ∧ After env cfg c s' := by
  intro fuel
  induction fuel with
  | zero => intro n s t h; omega
  | succ fuel ih =>
    intro n s t hn ha hc ht
    simp only [interactions]
    rw [isFinished_after ha]
    cases hc with
    | here =>
      simp only [ht, if_true]
      exact ⟨s, rfl, rfl, ha⟩
    | @move _ _ s1 _ n hw hp hc =>
      obtain ⟨a1, a2, a3⟩ := after_live ha hw
      have hp' : env.perform s.env c.opp (agent s.env) = .ok s1 := by simpa [seats, opp_ne] using hp
      obtain ⟨t1, e1, e2, e3⟩ := epPerform_live hm a1 a2 a3 hp'
      simp only [hw, Option.isSome_none, Bool.false_eq_true, if_false, performAction, e1]
      rw [isFinished_after e3, e2]
      cases hw1 : env.winner s1 with
      | some r =>
        simp only [Option.isSome_some, Bool.not_true, Bool.false_eq_true, if_false]
        obtain ⟨r', hr⟩ := getReward_after hm e3
        simp only [hr]
        refine ih n t1 t (by omega) e3 ?_ ht
        cases hc with
        | here => rw [e2]; exact .here _ _
        | move hw2 _ _ => rw [hw1] at hw2; simp at hw2
      | none =>
        simp only [Option.isSome_none, Bool.not_false, if_true]
        rw [opp_opp] at hc
        cases hc with
        | here => rw [hw1] at ht; simp at ht
        | @move _ _ s2 _ n hw2 hp2 hc2 =>
          obtain ⟨b1, b2, b3⟩ := after_live e3 (by rw [e2]; exact hw1)
          have hp2' : env.perform t1.env c (opp s1) = .ok s2 := by rw [e2]; simpa [seats] using hp2
          obtain ⟨t2, f1, f2, f3⟩ := epPerform_live hm b1 b2 b3 hp2'
          rw [b1, f1]
          obtain ⟨r', hr⟩ := getReward_after hm f3
          simp only [hr]
          refine ih n t2 t (by omega) f3 ?_ ht
          rw [f2]; exact hc2

theorem turn_one_opp (a : Bool) (c : Color) (k : Nat) : turn a (turn a c 1) k = turn a c (k + 1) := by
  unfold turn
  cases a with
  | false => simp
  | true =>
    have h : k % 2 = 0 ∨ k % 2 = 1 := by omega
    rcases h with h | h
    · have h1 : (k + 1) % 2 = 1 := by omega
      simp [h, h1]
    · have h1 : (k + 1) % 2 = 0 := by omega
      simp [h, h1, opp_opp]

/-- one game -/
theorem game_course {env : Env σ M} {cfg : Cfg K} (hm : cfg.maxmoves - cfg.minmoves ≠ 0) (agent opp : σ → M) (c : Color)
    (fuel n : Nat) (t : σ) (hn : n < fuel) (hg : Spec.Game env (seats c opp agent) n t) :
    ∃ s', game env cfg agent opp fuel c = some (.ok s') ∧ s'.env = t ∧ After env cfg c s' := by
  obtain ⟨s, hr, hs, hc, ht⟩ := hg
  unfold game reset
  simp only [hr]
  cases c with
  | white =>
    simp only [reduceCtorEq, if_false]
    exact interactions_course hm agent opp .white fuel n _ t hn (by simp [After, hs]) hc ht
  | black =>
    simp only [if_true]
    cases hc with
    | here => rw [hs] at ht; simp at ht
    | @move _ _ s1 _ n hw hp hc =>
      have hp' : env.perform s .black (opp s) = .ok s1 := by simpa [seats] using hp
      obtain ⟨t1, e1, e2, e3⟩ := epPerform_live (K := K) (s := { env := s, color := .black, switched := false, cum := 0 }) hm rfl rfl rfl hp'
      rw [e1]
      refine interactions_course hm agent opp .black fuel n t1 t (by omega) e3 ?_ ht
      rw [e2]; exact hc

/-- a number of games -/
theorem games_course {env : Env σ M} {cfg : Cfg K} (hm : cfg.maxmoves - cfg.minmoves ≠ 0) (agent opp : Nat → σ → M) (fuel : Nat)
    (n : Nat → Nat) (t : Nat → σ) (r : Nat → Result) : ∀ (len start : Nat) (c : Color) (res : K),
    (∀ k < len, n (start + k) < fuel ∧ env.winner (t (start + k)) = some (r (start + k)) ∧
      Spec.Game env (seats (turn cfg.alternateStarting c k) (opp (start + k)) (agent (start + k))) (n (start + k)) (t (start + k))) →
    games env cfg agent opp fuel (List.range' start len) c res = some (.ok
      (res + ((List.range len).map (fun k => value cfg (turn cfg.alternateStarting c k).opp (env.moves (t (start + k))) (r (start + k)))).sum,
        turn cfg.alternateStarting c len)) := by
  intro len
  induction len with
  | zero => intro start c res _; simp [games, turn]
  | succ len ih =>
    intro start c res h
    obtain ⟨h1, h2, h3⟩ := h 0 (by omega)
    simp only [Nat.add_zero] at h1 h2 h3
    have ht0 : turn cfg.alternateStarting c 0 = c := by simp [turn]
    rw [ht0] at h3
    obtain ⟨s, e1, e2, e3⟩ := game_course hm (agent start) (opp start) c fuel (n start) (t start) h1 h3
    rw [List.range'_succ, games, e1]
    simp only
    unfold After at e3
    rw [e2, h2] at e3
    obtain ⟨f1, _, f3⟩ := e3
    rw [f1, f3, ih (start + 1) (turn cfg.alternateStarting c 1) _ (by
      intro k hk
      rw [turn_one_opp]
      have := h (k + 1) (by omega)
      rwa [show start + (k + 1) = start + 1 + k by omega] at this)]
    rw [turn_one_opp, List.range_succ_eq_map, List.map_cons, List.sum_cons, List.map_map]
    simp only [Nat.add_zero, ht0]
    congr 3
    rw [add_assoc]
    congr 2
    congr 1
    apply List.map_congr_left
    intro k _
    simp only [Function.comp, turn_one_opp]
    rw [show start + (k + 1) = start + 1 + k by omega]

end Verif.GameTask

namespace Verif.Capture
open Verif.Capture.Spec Verif.Props

/-- the number of empty points -/
def empties (g : Game) : Nat := (getLegals g).length

theorem empties_new (size : Nat) (se : Bool) : empties (newGame size se) = size * size := by
  simp [empties, getLegals, newGame, iterPos]

theorem empties_place {g g' : Game} {c : Color} {pos : Pos} (hs : g'.size = g.size) (hb : g'.b = place g.b c pos) (hp : Point g.size pos)
    (he : g.b pos = .empty) : empties g = empties g' + 1 := by
  have hmem : pos ∈ (iterPos g.size).filter (fun p => decide (g.b p = .empty)) := by
    simp [mem_iterPos, hp, he]
  have heq : getLegals g' = (getLegals g).erase pos := by
    unfold getLegals
    rw [hs, hb]
    rw [List.Nodup.erase_eq_filter ((iterPos_nodup _).filter _), List.filter_filter]
    apply List.filter_congr
    intro p _
    by_cases h : p = pos
    · subst h; cases c <;> simp [place, Color.cell]
    · simp [place, h]
  have hlen := List.length_erase_of_mem hmem
  have hpos := List.length_pos_of_mem hmem
  unfold empties
  rw [heq]
  unfold getLegals
  omega

theorem reached_move {size : Nat} {se : Bool} {g g' : Game} {c : Color} {m : Move} {b : Bool} (h : Reached size se g)
    (hd : doMove g c m = .ok (g', b)) : Reached size se g' := by
  obtain ⟨ms, h⟩ := h
  refine ⟨ms ++ [(c, m)], ?_⟩
  have aux : ∀ (ms : List (Color × Move)) (g0 : Game), play g0 ms = .ok g → play g0 (ms ++ [(c, m)]) = .ok g' := by
    intro ms
    induction ms with
    | nil => intro g0 h0; simp only [play, Except.ok.injEq] at h0; subst h0; simp [play, hd]
    | cons cm ms ih =>
      intro g0 h0
      obtain ⟨d, m'⟩ := cm
      rw [List.cons_append, play]
      rw [play] at h0
      cases hx : doMove g0 d m' with
      | error e => rw [hx] at h0; simp at h0
      | ok r => rw [hx] at h0; simp only at h0 ⊢; exact ih _ h0
  exact aux ms _ h

/-- an undecided game has an empty point -/
theorem exists_empty {size : Nat} {se : Bool} {g : Game} (h : Reached size se g) (hw : g.winner = none) (hs : 0 < size) :
    ∃ pos, Point size pos ∧ g.b pos = .empty := by
  obtain ⟨hI, rfl, _⟩ := reached_inv h hw
  by_cases h0 : g.b (0, 0) = .empty
  · exact ⟨(0, 0), ⟨hs, hs⟩, h0⟩
  · rcases hI.clean (0, 0) with h1 | h1
    · exact absurd h1 h0
    · obtain ⟨e, h2, h3, _⟩ := hI.alive (0, 0) h1.1 h1.2
      exact ⟨e, h2, h3⟩

/-- a player who always answers with an empty point -/
def Legal (size : Nat) (player : Game → Move) : Prop :=
  ∀ g, Reached size true g → g.winner = none → ∃ pos, player g = .at pos ∧ Point size pos ∧ g.b pos = .empty

end Verif.Capture

namespace Verif.GameTask
open Verif.DataSet (Err)
open Verif.Capture (Color Legal empties)
open Verif.GameTask.Spec

/-- every point of a board of size at least 2 has two neighbours -/
theorem two_neighbors {size : Nat} (hs : 2 ≤ size) {p : Capture.Pos} (hp : Capture.Spec.Point size p) :
    ∃ e f, e ≠ f ∧ Capture.Spec.Point size e ∧ Capture.Spec.Point size f ∧ Capture.Spec.Adj p e ∧ Capture.Spec.Adj p f := by
  obtain ⟨x, y⟩ := p
  obtain ⟨h1, h2⟩ := hp
  simp only at h1 h2
  have hx : ∃ x', x' < size ∧ (x + 1 = x' ∨ x' + 1 = x) := by
    by_cases h : x + 1 < size
    · exact ⟨x + 1, h, Or.inl rfl⟩
    · exact ⟨x - 1, by omega, Or.inr (by omega)⟩
  have hy : ∃ y', y' < size ∧ (y + 1 = y' ∨ y' + 1 = y) := by
    by_cases h : y + 1 < size
    · exact ⟨y + 1, h, Or.inl rfl⟩
    · exact ⟨y - 1, by omega, Or.inr (by omega)⟩
  obtain ⟨x', hx1, hx2⟩ := hx
  obtain ⟨y', hy1, hy2⟩ := hy
  refine ⟨(x', y), (x, y'), ?_, ⟨hx1, h2⟩, ⟨h1, hy1⟩, Or.inr ⟨rfl, hx2⟩, Or.inl ⟨rfl, hy2⟩⟩
  intro e
  simp only [Prod.mk.injEq] at e
  omega

/-- a board on which the next stone can decide the game has at least two stones -/
theorem two_stones {size : Nat} (hs : 2 ≤ size) {b : Capture.Pos → Capture.Cell} {c : Color} {pos : Capture.Pos}
    (hp : Capture.Spec.Point size pos) (h : Capture.Spec.Suicide size b c pos ∨ Capture.Spec.Captures size b c pos) :
    ∃ p q, p ≠ q ∧ b p ≠ .empty ∧ b q ≠ .empty := by
  have hcell : ∀ d : Color, d.cell ≠ .empty := by intro d; cases d <;> decide
  rcases h with ⟨h, _⟩ | ⟨n, hn, hadj, hbn, hlib⟩
  · obtain ⟨e, f, hef, he, hf, ae, af⟩ := two_neighbors hs hp
    have key : ∀ e, Capture.Spec.Point size e → Capture.Spec.Adj pos e → b e ≠ .empty := by
      intro e he ae hbe
      have hne : e ≠ pos := by
        rintro rfl
        rcases ae with ⟨_, h⟩ | ⟨_, h⟩ <;> omega
      have : e ∈ Capture.Spec.liberties size (Capture.Spec.place b c pos) pos :=
        ⟨he, by simp [Capture.Spec.place, hne, hbe], pos, .refl, ae⟩
      rw [h] at this
      exact this
    exact ⟨e, f, hef, key e he ae, key f hf af⟩
  · obtain ⟨e, f, hef, he, hf, ae, af⟩ := two_neighbors hs hn
    have key : ∀ e, Capture.Spec.Point size e → Capture.Spec.Adj n e → e = pos ∨ (b e ≠ .empty ∧ e ≠ n) := by
      intro e he ae
      by_cases hep : e = pos
      · exact Or.inl hep
      refine Or.inr ⟨fun hbe => ?_, ?_⟩
      · have : e ∈ Capture.Spec.liberties size (Capture.Spec.place b c pos) n :=
          ⟨he, by simp [Capture.Spec.place, hep, hbe], n, .refl, ae⟩
        rw [hlib] at this
        exact this
      · rintro rfl
        rcases ae with ⟨_, h⟩ | ⟨_, h⟩ <;> omega
    have hbn' : b n ≠ .empty := by rw [hbn]; exact hcell _
    rcases key e he ae with rfl | ⟨h1, h2⟩
    · rcases key f hf af with rfl | ⟨h1, h2⟩
      · exact absurd rfl hef
      · exact ⟨f, n, h2, h1, hbn'⟩
    · exact ⟨e, n, h2, h1, hbn'⟩

/-- the stones lie on at most `movesDone` points -/
def Few (g : Capture.Game) : Prop := ∃ S : Finset Capture.Pos, S.card ≤ g.movesDone ∧ ∀ p, g.b p ≠ .empty → p ∈ S

theorem few_two {g : Capture.Game} (h : Few g) {p q : Capture.Pos} (hpq : p ≠ q) (hp : g.b p ≠ .empty) (hq : g.b q ≠ .empty) :
    2 ≤ g.movesDone := by
  obtain ⟨S, h1, h2⟩ := h
  have : ({p, q} : Finset Capture.Pos).card ≤ S.card := Finset.card_le_card (by
    intro x hx
    simp only [Finset.mem_insert, Finset.mem_singleton] at hx
    rcases hx with rfl | rfl
    · exact h2 _ hp
    · exact h2 _ hq)
  rw [Finset.card_pair hpq] at this
  omega

/-- a legal move -/
theorem capture_move {size : Nat} (hsize : 2 ≤ size) {g : Capture.Game} {c : Color} {m : Capture.Move} (h : Props.Reached size true g)
    (hw : g.winner = none) (hf : Few g) (hm : ∃ pos, m = .at pos ∧ Capture.Spec.Point size pos ∧ g.b pos = .empty) :
    ∃ g', (captureEnv size).perform g c m = .ok g' ∧ g'.movesDone = g.movesDone + 1 ∧ Props.Reached size true g' ∧
      (g'.winner = none → empties g = empties g' + 1 ∧ Few g') ∧ (g'.winner ≠ none → 3 ≤ g'.movesDone) := by
  obtain ⟨pos, rfl, hp, he⟩ := hm
  obtain ⟨hI, hsz, hse⟩ := Props.reached_inv h hw
  obtain ⟨_, h2, h3, h4⟩ := Props.capture_doMove hI c pos
  rw [hsz] at h2 h3 h4
  by_cases hs : Capture.Spec.Suicide size g.b c pos
  · have := h2 ⟨hp, he⟩ hs
    rw [hse] at this
    simp only [if_true] at this
    obtain ⟨p, q, hpq, k1, k2⟩ := two_stones hsize hp (Or.inl hs)
    have := few_two hf hpq k1 k2
    exact ⟨_, by simp only [captureEnv, ‹Capture.doMove g c (.at pos) = _›]; rfl, rfl, Capture.reached_move h ‹Capture.doMove g c (.at pos) = _›,
      fun e => by simp at e, fun _ => by simp only; omega⟩
  · by_cases hc : Capture.Spec.Captures size g.b c pos
    · have hd := h3 ⟨hp, he⟩ hc
      obtain ⟨p, q, hpq, k1, k2⟩ := two_stones hsize hp (Or.inr hc)
      have := few_two hf hpq k1 k2
      exact ⟨_, by simp only [captureEnv, hd]; rfl, rfl, Capture.reached_move h hd, fun e => by simp at e, fun _ => by simp only; omega⟩
    · obtain ⟨g', e1, _, e3, e4, _, e6, e7⟩ := h4 ⟨hp, he⟩ hs hc
      refine ⟨g', by simp only [captureEnv, e1]; rfl, e6, Capture.reached_move h e1,
        fun _ => ⟨Capture.empties_place (e4.trans hsz.symm) e3 (by rw [hsz]; exact hp) he, ?_⟩, fun hne => absurd (e7.trans hw) hne⟩
      obtain ⟨S, k1, k2⟩ := hf
      refine ⟨insert pos S, (Finset.card_insert_le _ _).trans (by omega), fun p hb => ?_⟩
      rw [e3] at hb
      by_cases hpp : p = pos
      · simp [hpp]
      · simp only [Capture.Spec.place, hpp, if_false] at hb
        exact Finset.mem_insert_of_mem (k2 p hb)

/-- the rest of a game between legal players -/
theorem capture_course {size : Nat} (hsize : 2 ≤ size) (player : Color → Capture.Game → Capture.Move) (hl : ∀ c, Legal size (player c)) :
    ∀ (E : Nat) (g : Capture.Game) (c : Color), Props.Reached size true g → g.winner = none → Few g → empties g = E →
      ∃ n t w, Course (captureEnv size) player c g n t ∧ t.winner = some w ∧ n ≤ E ∧ t.movesDone = g.movesDone + n ∧ 3 ≤ t.movesDone := by
  intro E
  induction E with
  | zero =>
    intro g c hr hw _ he
    obtain ⟨pos, h1, h2⟩ := Capture.exists_empty hr hw (by omega)
    obtain ⟨_, hsz, _⟩ := Props.reached_inv hr hw
    have : pos ∈ Capture.getLegals g := by simp [Capture.getLegals, Props.mem_iterPos, hsz, h1, h2]
    exact absurd he (Nat.ne_of_gt (List.length_pos_of_mem this))
  | succ E ih =>
    intro g c hr hw hf he
    obtain ⟨g', h1, h2, h3, h4, h5⟩ := capture_move hsize (c := c) hr hw hf (hl c g hr hw)
    have hwe : (captureEnv size).winner g = none := by simp [captureEnv, hw]
    cases hw' : g'.winner with
    | some w => exact ⟨1, g', w, .move hwe h1 (.here _ _), hw', by omega, by omega, h5 (by rw [hw']; simp)⟩
    | none =>
      obtain ⟨k, kf⟩ := h4 hw'
      obtain ⟨n, t, w, k1, k2, k4, k5, k6⟩ := ih g' c.opp h3 hw' kf (by omega)
      exact ⟨n + 1, t, w, .move hwe h1 k1, k2, by omega, by omega, k6⟩

/-! ### Go-Moku -/

/-- a player of Go-Moku who always answers with an empty point -/
def GomokuLegal (size : Nat) (player : Gomoku.Game → Gomoku.Pos) : Prop :=
  ∀ g, Gomoku.Reached (size, size) g → g.winner = none → Gomoku.Spec.Point (size, size) (player g) ∧ g.b (player g) = .empty

/-- the stones of colour `c` lie on at most `k` points -/
def FewOf (g : Gomoku.Game) (c : Color) (k : Nat) : Prop := ∃ S : Finset Gomoku.Pos, S.card ≤ k ∧ ∀ p, g.b p = c.cell → p ∈ S

theorem five_stones {size : Nat × Nat} {b : Gomoku.Pos → Capture.Cell} {c : Color} {pos : Gomoku.Pos} {S : Finset Gomoku.Pos}
    (h : Gomoku.Spec.Completes size b c pos) (hS : ∀ p, b p = c.cell → p ∈ S) : 5 ≤ S.card + 1 := by
  obtain ⟨start, dir, ⟨hd, hl⟩, _⟩ := h
  have hinj : Function.Injective (fun j : Fin 5 => Gomoku.Spec.shift start dir ((j : Nat) : Int)) := by
    intro i j hij
    simp only [Gomoku.Spec.shift, Prod.mk.injEq] at hij
    apply Fin.ext
    simp only [List.mem_cons, List.not_mem_nil, or_false] at hd
    rcases hd with rfl | rfl | rfl | rfl <;> simp only at hij <;> omega
  have hsub : (Finset.univ.image (fun j : Fin 5 => Gomoku.Spec.shift start dir ((j : Nat) : Int))) ⊆ insert pos S := by
    intro p hp
    simp only [Finset.mem_image, Finset.mem_univ, true_and] at hp
    obtain ⟨j, rfl⟩ := hp
    have := (hl ((j : Nat) : Int) (by omega) (by omega)).2
    simp only [Gomoku.Spec.place] at this
    split at this
    · rename_i hh; simp [hh]
    · exact Finset.mem_insert_of_mem (hS _ this)
  have h1 := Finset.card_le_card hsub
  rw [Finset.card_image_of_injective _ hinj] at h1
  have h2 := Finset.card_insert_le pos S
  simp at h1
  omega

theorem gomoku_course {size : Nat} (player : Color → Gomoku.Game → Gomoku.Pos) (hl : ∀ c, GomokuLegal size (player c)) :
    ∀ (E : Nat) (g : Gomoku.Game) (c : Color), Gomoku.Reached (size, size) g → g.winner = none → size * size = g.movesDone + E →
      FewOf g c (g.movesDone / 2) → FewOf g c.opp ((g.movesDone + 1) / 2) →
      ∃ n t r, Course (gomokuEnv size) player c g n t ∧ t.winner = some r ∧ n ≤ E ∧ t.movesDone = g.movesDone + n ∧
        ((∃ w, r = .won w) → 9 ≤ t.movesDone) ∧ (r = .draw → t.movesDone = size * size) := by
  intro E
  induction E with
  | zero =>
    intro g c hr hw he _ _
    obtain ⟨_, _, _, hn, _⟩ := Gomoku.reached_inv hr
    exact absurd (show g.movesDone = size * size by omega) (hn hw).1
  | succ E ih =>
    intro g c hr hw he hf1 hf2
    obtain ⟨hp, hb⟩ := hl c g hr hw
    obtain ⟨hsz, _, _, hn, _⟩ := Gomoku.reached_inv hr
    obtain ⟨g', hd⟩ := Gomoku.doMove_accepts g c (player c g) (by rw [hsz]; exact hp) hb
    obtain ⟨_, _, _, hmd, hcase⟩ := Gomoku.doMove_legal hd
    have hpf : (gomokuEnv size).perform g c (player c g) = .ok g' := by simp only [gomokuEnv, hd]; rfl
    have hwe : (gomokuEnv size).winner g = none := hw
    rw [hsz] at hcase
    rcases hcase with ⟨hcp, hwn, _⟩ | ⟨hcp, hb', hwn⟩
    · obtain ⟨S, k1, k2⟩ := hf1
      have := five_stones hcp k2
      exact ⟨1, g', .won c, .move hwe hpf (.here _ _), hwn, by omega, by omega, fun _ => by omega, fun h => by simp at h⟩
    · by_cases hfull : g.movesDone + 1 = size * size
      · simp only [hfull, if_true] at hwn
        exact ⟨1, g', .draw, .move hwe hpf (.here _ _), hwn, by omega, by omega, fun ⟨w, h⟩ => by simp at h, fun _ => by omega⟩
      · simp only [hfull, if_false] at hwn
        rw [hw] at hwn
        have hr' : Gomoku.Reached (size, size) g' := .move hr hw hd
        have hc1 : FewOf g' c.opp (g'.movesDone / 2) := by
          obtain ⟨S, k1, k2⟩ := hf2
          refine ⟨S, by rw [hmd]; exact k1, fun p hpb => k2 p ?_⟩
          rw [hb'] at hpb
          simp only [Capture.upd] at hpb
          split at hpb
          · exact absurd hpb (Gomoku.color_ne_opp c)
          · exact hpb
        have hc2 : FewOf g' c.opp.opp ((g'.movesDone + 1) / 2) := by
          rw [opp_opp]
          obtain ⟨S, k1, k2⟩ := hf1
          refine ⟨insert (player c g) S, (Finset.card_insert_le _ _).trans (by omega), fun p hpb => ?_⟩
          rw [hb'] at hpb
          simp only [Capture.upd] at hpb
          split at hpb
          · rename_i hh; simp [hh]
          · exact Finset.mem_insert_of_mem (k2 p hpb)
        obtain ⟨n, t, r, j1, j2, j3, j4, j5, j6⟩ := ih g' c.opp hr' hwn (by omega) hc1 hc2
        exact ⟨n + 1, t, r, .move hwe hpf j1, j2, by omega, by omega, j5, j6⟩

end Verif.GameTask

namespace Verif.GameTask
open Verif.Capture (Color)
open Verif.GameTask.Spec

theorem play_course {σ M : Type} {env : Env σ M} {player : Color → σ → M} {c : Color} {s t : σ} {n : Nat}
    (h : Course env player c s n t) (ht : (env.winner t).isSome) : ∀ fuel, n < fuel → playToTheEnd env player fuel c s = some (.ok t) := by
  induction h with
  | here c s =>
    intro fuel hf
    obtain ⟨fuel, rfl⟩ : ∃ m, fuel = m + 1 := ⟨fuel - 1, by omega⟩
    obtain ⟨r, hr⟩ := Option.isSome_iff_exists.1 ht
    simp [playToTheEnd, hr]
  | move hw hp _ ih =>
    intro fuel hf
    obtain ⟨fuel, rfl⟩ : ∃ m, fuel = m + 1 := ⟨fuel - 1, by omega⟩
    simp only [playToTheEnd, hw, hp]
    exact ih ht fuel (by omega)

/-- CaptureGameTask's parameters for a board, capturetask.py:14-29 and 45-46 -/
def captureCfg {K : Type} [Field K] (size : Nat) (alternate : Bool) (winnerReward numMovesCoeff : K) : Cfg K :=
  { alternateStarting := alternate, winnerReward := winnerReward, numMovesCoeff := numMovesCoeff, minmoves := 3,
    maxmoves := ((size * size : Nat) : K) }

/-- GomokuTask's parameters, gomokutask.py:15-30 and 44-45 -/
def gomokuCfg {K : Type} [Field K] (size : Nat) (alternate : Bool) (winnerReward numMovesCoeff : K) : Cfg K :=
  { alternateStarting := alternate, winnerReward := winnerReward, numMovesCoeff := numMovesCoeff, minmoves := 9,
    maxmoves := ((size * size : Nat) : K) }

theorem value_bounds {K : Type} [Field K] [LinearOrder K] [IsStrictOrderedRing K] {cfg : Cfg K} {moves : Nat} (c d : Color)
    (hm : cfg.minmoves < cfg.maxmoves) (h0 : 0 ≤ cfg.numMovesCoeff) (h1 : cfg.minmoves ≤ moves) (h2 : (moves : K) ≤ cfg.maxmoves) :
    (d = c → cfg.winnerReward - cfg.numMovesCoeff ≤ value cfg c moves (.won d) ∧ value cfg c moves (.won d) ≤ cfg.winnerReward) ∧
    (d ≠ c → -cfg.winnerReward ≤ value cfg c moves (.won d) ∧ value cfg c moves (.won d) ≤ -(cfg.winnerReward - cfg.numMovesCoeff)) := by
  have hpos : 0 < cfg.maxmoves - cfg.minmoves := sub_pos.2 hm
  have a1 : 0 ≤ cfg.numMovesCoeff * ((moves : K) - cfg.minmoves) / (cfg.maxmoves - cfg.minmoves) :=
    div_nonneg (mul_nonneg h0 (sub_nonneg.2 h1)) hpos.le
  have a2 : cfg.numMovesCoeff * ((moves : K) - cfg.minmoves) / (cfg.maxmoves - cfg.minmoves) ≤ cfg.numMovesCoeff := by
    rw [div_le_iff₀ hpos]
    exact mul_le_mul_of_nonneg_left (by linarith) h0
  refine ⟨fun h => ?_, fun h => ?_⟩
  · simp only [value, h, if_true]
    constructor <;> linarith
  · simp only [value, h, if_false]
    constructor <;> linarith

theorem square_ne_three (size : Nat) (hs : 2 ≤ size) : 4 ≤ size * size := Nat.mul_le_mul hs hs

/-- the initial board of Go-Moku -/
def emptyBoard (size : Nat) : Gomoku.Game :=
  { size := (size, size), movesDone := 0, winner := none, b := fun _ => .empty, pairsTaken := fun _ => 0 }

/-- a player who takes the first empty point -/
def firstFree (g : Capture.Game) : Capture.Move :=
  match Capture.getLegals g with
  | [] => .resign
  | p :: _ => .at p

theorem firstFree_legal {size : Nat} (hs : 0 < size) : Capture.Legal size firstFree := by
  intro g hr hw
  obtain ⟨pos, h1, h2⟩ := Capture.exists_empty hr hw hs
  obtain ⟨_, hsz, _⟩ := Props.reached_inv hr hw
  have hmem : pos ∈ Capture.getLegals g := by simp [Capture.getLegals, Props.mem_iterPos, hsz, h1, h2]
  unfold firstFree
  cases hl : Capture.getLegals g with
  | nil => rw [hl] at hmem; simp at hmem
  | cons p ps =>
    have hp : p ∈ Capture.getLegals g := by rw [hl]; simp
    simp only [Capture.getLegals, List.mem_filter, Props.mem_iterPos, hsz, decide_eq_true_eq] at hp
    exact ⟨p, rfl, hp.1, hp.2⟩

end Verif.GameTask

namespace Verif.Props
open Verif.DataSet (Err)
open Verif.Capture (Color Legal)
open Verif.Gomoku (Result)
open Verif.GameTask Verif.GameTask.Spec

/-- **C104, the score.** For every game (CaptureGame, GomokuGame, PenteGame or any other) and any players: if the games of an evaluation
come to an end, black always moving first and the agent playing the colour the opponent does not have, then the task's value is the mean
of the games' values for the agent. With `alternateStarting` the players exchange colours after every game, otherwise they keep them,
and the reward of each game still goes to the side that won it. -/
theorem C104_score {σ M K : Type} [Field K] [LinearOrder K] [IsStrictOrderedRing K] (env : Env σ M) (cfg : Cfg K)
    (hm : cfg.minmoves < cfg.maxmoves) (agent opp : Nat → σ → M) (c : Color) (games : Nat) (hg : 0 < games)
    (n : Nat → Nat) (t : Nat → σ) (r : Nat → Result)
    (hplay : ∀ k < games, Game env (seats (turn cfg.alternateStarting c k) (opp k) (agent k)) (n k) (t k) ∧ env.winner (t k) = some (r k))
    (fuel : Nat) (hf : ∀ k < games, n k < fuel) :
    f env cfg agent opp fuel games c = some (.ok
      (((List.range games).map (fun k => value cfg (turn cfg.alternateStarting c k).opp (env.moves (t k)) (r k))).sum / games,
        turn cfg.alternateStarting c games)) := by
  have := games_course (K := K) (cfg := cfg) (sub_pos.2 hm).ne' agent opp fuel n t r games 0 c 0 (by
    intro k hk
    rw [Nat.zero_add]
    exact ⟨hf k hk, (hplay k hk).2, (hplay k hk).1⟩)
  rw [← List.range_eq_range'] at this
  simp only [Nat.zero_add, zero_add] at this
  unfold f
  rw [this]
  simp only
  rw [if_neg (by exact_mod_cast hg.ne')]

/-- **C104, capture games end.** On any board of at least 2 × 2 points, two players who always choose an empty point finish their game
with a winner, after at least 3 and at most `size²` moves; `movesDone` counts them, and `playToTheEnd` returns this game. -/
theorem C104_capture_ends (size : Nat) (hs : 2 ≤ size) (player : Color → Capture.Game → Capture.Move) (hl : ∀ c, Legal size (player c)) :
    ∃ n t w, Game (captureEnv size) player n t ∧ t.winner = some w ∧ t.movesDone = n ∧ 3 ≤ n ∧ n ≤ size * size ∧
      ∀ fuel, size * size < fuel → playToTheEnd (captureEnv size) player fuel .black (Capture.newGame size true) = some (.ok t) := by
  obtain ⟨n, t, w, h1, h2, h3, h4, h5⟩ := capture_course hs player hl (size * size) (Capture.newGame size true) .black ⟨[], rfl⟩ rfl
    ⟨∅, by simp, fun p hp => by simp [Capture.newGame] at hp⟩ (Capture.empties_new _ _)
  have h0 : (Capture.newGame size true).movesDone = 0 := rfl
  have ht : ((captureEnv size).winner t).isSome := by simp [captureEnv, h2]
  exact ⟨n, t, w, ⟨_, rfl, rfl, h1, ht⟩, h2, by omega, by omega, h3, fun fuel hf => play_course h1 ht fuel (by omega)⟩

/-- **C104, Go-Moku games end.** On any admissible board, two players who always choose an empty point finish their game: with a winner
after at least 9 moves, or with a draw after exactly `size²` moves. -/
theorem C104_gomoku_ends (size : Nat) (hs : 5 ≤ size) (player : Color → Gomoku.Game → Gomoku.Pos) (hl : ∀ c, GomokuLegal size (player c)) :
    ∃ n t r, Game (gomokuEnv size) player n t ∧ t.winner = some r ∧ t.movesDone = n ∧ n ≤ size * size ∧
      ((∃ w, r = .won w) → 9 ≤ n) ∧ (r = .draw → n = size * size) ∧
      ∀ g, Gomoku.newGomoku (size, size) = .ok g → ∀ fuel, size * size < fuel →
        playToTheEnd (gomokuEnv size) player fuel .black g = some (.ok t) := by
  have hnew : Gomoku.newGomoku (size, size) = .ok (emptyBoard size) := by simp [Gomoku.newGomoku, hs, emptyBoard]
  have hemp : ∀ (d : Color) (k : Nat), FewOf (emptyBoard size) d k :=
    fun d k => ⟨∅, by simp, fun p hp => absurd hp.symm (Gomoku.color_ne_empty d)⟩
  obtain ⟨n, t, r, h1, h2, h3, h4, h5, h6⟩ := gomoku_course player hl (size * size) _ .black (.start hnew) rfl (by simp [emptyBoard]) (hemp _ _) (hemp _ _)
  have ht : ((gomokuEnv size).winner t).isSome := by simp [gomokuEnv, h2]
  have h0 : (emptyBoard size).movesDone = 0 := rfl
  refine ⟨n, t, r, ⟨_, hnew, rfl, h1, ht⟩, h2, by omega, h3, fun h => by have := h5 h; omega, fun h => by have := h6 h; omega, ?_⟩
  intro g hg fuel hf
  rw [hnew] at hg
  simp only [Except.ok.injEq] at hg
  subst hg
  exact play_course h1 ht fuel (by omega)

/-- **C104, evaluation in a CaptureGameTask.** For any agent and opponent that always choose empty points, whatever else they do, the
evaluation over any positive number of games succeeds: it is the mean of the values of games that ended after 3 to `size²` moves, each
between `winnerReward - numMovesCoeff` and `winnerReward` for the winner and the negative of that for the loser, and so the result lies
between `-winnerReward` and `winnerReward`. -/
theorem C104_capture_task {K : Type} [Field K] [LinearOrder K] [IsStrictOrderedRing K] (size : Nat) (hs : 2 ≤ size) (alternate : Bool)
    (reward coeff : K) (h0 : 0 ≤ coeff) (h1 : coeff ≤ 2 * reward) (agent opp : Nat → Capture.Game → Capture.Move)
    (ha : ∀ k, Legal size (agent k)) (ho : ∀ k, Legal size (opp k)) (c : Color) (games : Nat) (hg : 0 < games) :
    ∃ (moves : Nat → Nat) (winner : Nat → Color) (v : K),
      (∀ fuel, size * size < fuel → f (captureEnv size) (captureCfg size alternate reward coeff) agent opp fuel games c =
        some (.ok (v, turn alternate c games))) ∧
      (∀ k < games, 3 ≤ moves k ∧ moves k ≤ size * size ∧ ∃ t, t.winner = some (winner k) ∧
        Game (captureEnv size) (seats (turn alternate c k) (opp k) (agent k)) (moves k) t) ∧
      v = ((List.range games).map (fun k => value (captureCfg size alternate reward coeff) (turn alternate c k).opp (moves k)
        (.won (winner k)))).sum / games ∧
      (∀ k < games, if winner k = turn alternate c k
        then -reward ≤ value (captureCfg size alternate reward coeff) (turn alternate c k).opp (moves k) (.won (winner k)) ∧
          value (captureCfg size alternate reward coeff) (turn alternate c k).opp (moves k) (.won (winner k)) ≤ -(reward - coeff)
        else reward - coeff ≤ value (captureCfg size alternate reward coeff) (turn alternate c k).opp (moves k) (.won (winner k)) ∧
          value (captureCfg size alternate reward coeff) (turn alternate c k).opp (moves k) (.won (winner k)) ≤ reward) ∧
      -reward ≤ v ∧ v ≤ reward := by
  have hlegal : ∀ k d, Legal size (seats (turn alternate c k) (opp k) (agent k) d) := by
    intro k d
    unfold seats
    split
    · exact ho k
    · exact ha k
  choose n t w g1 g2 g3 g4 g5 _ using fun k => C104_capture_ends size hs (seats (turn alternate c k) (opp k) (agent k)) (hlegal k)
  have h4 := square_ne_three size hs
  have hlt : (captureCfg (K := K) size alternate reward coeff).minmoves < (captureCfg (K := K) size alternate reward coeff).maxmoves := by
    simp only [captureCfg]; exact_mod_cast (by omega : 3 < size * size)
  have hb : ∀ k, (if w k = turn alternate c k
        then -reward ≤ value (captureCfg size alternate reward coeff) (turn alternate c k).opp (n k) (.won (w k)) ∧
          value (captureCfg size alternate reward coeff) (turn alternate c k).opp (n k) (.won (w k)) ≤ -(reward - coeff)
        else reward - coeff ≤ value (captureCfg size alternate reward coeff) (turn alternate c k).opp (n k) (.won (w k)) ∧
          value (captureCfg size alternate reward coeff) (turn alternate c k).opp (n k) (.won (w k)) ≤ reward) := by
    intro k
    have := value_bounds (cfg := captureCfg (K := K) size alternate reward coeff) (moves := n k) (turn alternate c k).opp (w k) hlt h0
      (by simp only [captureCfg]; exact_mod_cast g4 k) (by simp only [captureCfg]; exact_mod_cast g5 k)
    by_cases hk : w k = turn alternate c k
    · rw [if_pos hk]
      exact this.2 (by rw [hk]; exact (opp_ne _).symm)
    · rw [if_neg hk]
      exact this.1 (eq_opp.2 hk)
  have hb' : ∀ k, -reward ≤ value (captureCfg size alternate reward coeff) (turn alternate c k).opp (n k) (.won (w k)) ∧
      value (captureCfg size alternate reward coeff) (turn alternate c k).opp (n k) (.won (w k)) ≤ reward := by
    intro k
    have := hb k
    split at this
    · exact ⟨this.1, by linarith⟩
    · exact ⟨by linarith, this.2⟩
  refine ⟨n, w, _, fun fuel hf => ?_, fun k hk => ⟨g4 k, g5 k, t k, g2 k, g1 k⟩, rfl, fun k _ => hb k, ?_⟩
  · have := C104_score (captureEnv size) (captureCfg (K := K) size alternate reward coeff) hlt agent opp c games hg n t (fun k => .won (w k))
      (fun k _ => ⟨g1 k, by simp [captureEnv, g2 k]⟩) fuel (fun k _ => lt_of_le_of_lt (g5 k) hf)
    rw [this]
    congr 4
    congr 1
    apply List.map_congr_left
    intro k _
    rw [show (captureEnv size).moves (t k) = n k from g3 k]
    rfl
  · have hpos : (0 : K) < games := by exact_mod_cast hg
    have hsum : ∀ (l : List Nat), -(l.length : K) * reward ≤ (l.map (fun k => value (captureCfg size alternate reward coeff)
        (turn alternate c k).opp (n k) (.won (w k)))).sum ∧ (l.map (fun k => value (captureCfg size alternate reward coeff)
        (turn alternate c k).opp (n k) (.won (w k)))).sum ≤ l.length * reward := by
      intro l
      induction l with
      | nil => simp
      | cons k l ih =>
        simp only [List.map_cons, List.sum_cons, List.length_cons, Nat.cast_add, Nat.cast_one]
        have := hb' k
        constructor <;> linarith [ih.1, ih.2, this.1, this.2]
    have := hsum (List.range games)
    rw [List.length_range] at this
    rw [le_div_iff₀ hpos, div_le_iff₀ hpos]
    constructor <;> linarith [this.1, this.2]

/-- **C104, evaluation in a GomokuTask.** The same for Go-Moku: with agents and opponents that always choose empty points the evaluation
succeeds and is the mean of the values of complete games; a draw is worth 0, a win after `n ≥ 9` moves between
`winnerReward - numMovesCoeff` and `winnerReward`, and the result lies between `-winnerReward` and `winnerReward`. -/
theorem C104_gomoku_task {K : Type} [Field K] [LinearOrder K] [IsStrictOrderedRing K] (size : Nat) (hs : 5 ≤ size) (alternate : Bool)
    (reward coeff : K) (h0 : 0 ≤ coeff) (h1 : coeff ≤ reward) (agent opp : Nat → Gomoku.Game → Gomoku.Pos)
    (ha : ∀ k, GomokuLegal size (agent k)) (ho : ∀ k, GomokuLegal size (opp k)) (c : Color) (games : Nat) (hg : 0 < games) :
    ∃ (moves : Nat → Nat) (result : Nat → Result) (v : K),
      (∀ fuel, size * size < fuel → f (gomokuEnv size) (gomokuCfg size alternate reward coeff) agent opp fuel games c =
        some (.ok (v, turn alternate c games))) ∧
      (∀ k < games, moves k ≤ size * size ∧ ∃ t, t.winner = some (result k) ∧
        Game (gomokuEnv size) (seats (turn alternate c k) (opp k) (agent k)) (moves k) t) ∧
      v = ((List.range games).map (fun k => value (gomokuCfg size alternate reward coeff) (turn alternate c k).opp (moves k)
        (result k))).sum / games ∧
      (∀ k < games, match result k with
        | .draw => value (gomokuCfg size alternate reward coeff) (turn alternate c k).opp (moves k) (result k) = 0
        | .won w => if w = turn alternate c k
            then value (gomokuCfg size alternate reward coeff) (turn alternate c k).opp (moves k) (result k) ≤ -(reward - coeff)
            else reward - coeff ≤ value (gomokuCfg size alternate reward coeff) (turn alternate c k).opp (moves k) (result k)) ∧
      -reward ≤ v ∧ v ≤ reward := by
  have hlegal : ∀ k d, GomokuLegal size (seats (turn alternate c k) (opp k) (agent k) d) := by
    intro k d
    unfold seats
    split
    · exact ho k
    · exact ha k
  choose n t r g1 g2 g3 g4 g5 _ _ using fun k => C104_gomoku_ends size hs (seats (turn alternate c k) (opp k) (agent k)) (hlegal k)
  have h4 : 25 ≤ size * size := Nat.mul_le_mul hs hs
  have hlt : (gomokuCfg (K := K) size alternate reward coeff).minmoves < (gomokuCfg (K := K) size alternate reward coeff).maxmoves := by
    simp only [gomokuCfg]; exact_mod_cast (by omega : 9 < size * size)
  have hw : ∀ k w, r k = .won w → _ := fun k w hk =>
    value_bounds (cfg := gomokuCfg (K := K) size alternate reward coeff) (moves := n k) (turn alternate c k).opp w hlt h0
      (by simp only [gomokuCfg]; exact_mod_cast g5 k ⟨w, hk⟩) (by simp only [gomokuCfg]; exact_mod_cast g4 k)
  have hb' : ∀ k, -reward ≤ value (gomokuCfg size alternate reward coeff) (turn alternate c k).opp (n k) (r k) ∧
      value (gomokuCfg size alternate reward coeff) (turn alternate c k).opp (n k) (r k) ≤ reward := by
    intro k
    cases hr : r k with
    | draw => simp only [value]; constructor <;> linarith
    | won w =>
      have := hw k w hr
      simp only [gomokuCfg] at this ⊢
      by_cases hk : w = (turn alternate c k).opp
      · have := this.1 hk; constructor <;> linarith [this.1, this.2]
      · have := this.2 hk; constructor <;> linarith [this.1, this.2]
  refine ⟨n, r, _, fun fuel hf => ?_, fun k hk => ⟨g4 k, t k, g2 k, g1 k⟩, rfl, fun k _ => ?_, ?_⟩
  · have := C104_score (gomokuEnv size) (gomokuCfg (K := K) size alternate reward coeff) hlt agent opp c games hg n t r
      (fun k _ => ⟨g1 k, g2 k⟩) fuel (fun k _ => lt_of_le_of_lt (g4 k) hf)
    rw [this]
    congr 4
    congr 1
    apply List.map_congr_left
    intro k _
    rw [show (gomokuEnv size).moves (t k) = n k from g3 k]
    rfl
  · cases hr : r k with
    | draw => rfl
    | won w =>
      simp only
      have := hw k w hr
      by_cases hk : w = turn alternate c k
      · rw [if_pos hk]
        exact (this.2 (by rw [hk]; exact (opp_ne _).symm)).2
      · rw [if_neg hk]
        exact (this.1 (eq_opp.2 hk)).1
  · have hpos : (0 : K) < games := by exact_mod_cast hg
    have hsum : ∀ (l : List Nat), -(l.length : K) * reward ≤ (l.map (fun k => value (gomokuCfg size alternate reward coeff)
        (turn alternate c k).opp (n k) (r k))).sum ∧ (l.map (fun k => value (gomokuCfg size alternate reward coeff)
        (turn alternate c k).opp (n k) (r k))).sum ≤ l.length * reward := by
      intro l
      induction l with
      | nil => simp
      | cons k l ih =>
        simp only [List.map_cons, List.sum_cons, List.length_cons, Nat.cast_add, Nat.cast_one]
        have := hb' k
        constructor <;> linarith [ih.1, ih.2, this.1, this.2]
    have := hsum (List.range games)
    rw [List.length_range] at this
    rw [le_div_iff₀ hpos, div_le_iff₀ hpos]
    constructor <;> linarith [this.1, this.2]

/-- players who meet the hypotheses: always take the first empty point -/
example : ∃ n t w, Game (captureEnv 5) (fun _ => firstFree) n t ∧ t.winner = some w ∧ 3 ≤ n := by
  obtain ⟨n, t, w, h1, h2, _, h3, _⟩ := C104_capture_ends 5 (by decide) (fun _ => firstFree) (fun _ => firstFree_legal (by decide))
  exact ⟨n, t, w, h1, h2, h3⟩

/-- **C104, passing: not excluded.** "Pass moves are forbidden", but a move to an occupied point is only ignored and the turn goes to the
other player: if both players insist on such a move the game never ends. -/
theorem C104_negation_pass : ∃ player : Color → Capture.Game → Capture.Move, ∀ fuel,
    playToTheEnd (captureEnv 3) player fuel .black (Capture.newGame 3 true) = none := by
  refine ⟨fun _ _ => .at (0, 0), fun fuel => ?_⟩
  have key : ∀ (fuel : Nat) (c : Color) (g : Capture.Game), g.size = 3 → g.winner = none → g.b (0, 0) = .black →
      playToTheEnd (captureEnv 3) (fun _ _ => .at (0, 0)) fuel c g = none := by
    intro fuel
    induction fuel with
    | zero => intro c g _ _ _; rfl
    | succ fuel ih =>
      intro c g h1 h2 h3
      have hw : (captureEnv 3).winner g = none := by simp [captureEnv, h2]
      have hp : (captureEnv 3).perform g c (.at (0, 0)) = .ok { g with movesDone := g.movesDone + 1 } := by
        simp [captureEnv, Capture.doMove, Capture.isLegal, h1, h3, Capture.onBoard, Except.map]
      simp only [playToTheEnd, hw, hp]
      exact ih _ _ h1 h2 h3
  cases fuel with
  | zero => rfl
  | succ fuel =>
    obtain ⟨hI, _⟩ := reached_inv (g := Capture.newGame 3 true) ⟨[], rfl⟩ rfl
    have hp : ∃ g, (captureEnv 3).perform (Capture.newGame 3 true) .black (.at (0, 0)) = .ok g ∧ g.size = 3 ∧ g.winner = none ∧
        g.b (0, 0) = .black := ⟨_, rfl, rfl, rfl, rfl⟩
    obtain ⟨g, h1, h2, h3, h4⟩ := hp
    have hw : (captureEnv 3).winner (Capture.newGame 3 true) = none := rfl
    simp only [playToTheEnd, hw, h1]
    exact key fuel _ g h2 h3 h4

end Verif.Props
