import Verif.Spec.Handicap
import Verif.Props.GameTask
import Mathlib.Tactic.Linarith
import Mathlib.Tactic.Ring
import Mathlib.Tactic.FieldSimp
import Mathlib.Tactic.NormNum
/-
Property theorems C105: the handicap task of the capture game.
-/
namespace Verif.Handicap
open Verif.DataSet (Err)
open Verif.Handicap.Spec

theorem lookup_put (h : Int) (x : Rec) : ∀ (r : Results) (k : Int), (put r h x).lookup k = if k = h then some x else r.lookup k := by
  intro r
  induction r with
  | nil =>
    intro k
    by_cases hk : k = h
    · simp [put, hk]
    · simp [put, hk, List.lookup, beq_eq_false_iff_ne.2 hk]
  | cons y r ih =>
    intro k
    obtain ⟨j, y⟩ := y
    rw [put]
    by_cases hj : j = h
    · subst hj
      by_cases hk : k = j
      · simp [hk]
      · simp [hk, List.lookup, beq_eq_false_iff_ne.2 hk]
    · rw [if_neg hj]
      by_cases hk : k = j
      · subst hk
        simp [hj]
      · simp only [List.lookup, beq_eq_false_iff_ne.2 hk]
        exact ih k

theorem lookup_isSome (r : Results) (k : Int) : (r.lookup k).isSome ↔ ∃ x, (k, x) ∈ r := by
  induction r with
  | nil => simp
  | cons y r ih =>
    obtain ⟨j, y⟩ := y
    by_cases hk : k = j
    · subst hk; simp
    · simp only [List.lookup, beq_eq_false_iff_ne.2 hk, ih, List.mem_cons, Prod.mk.injEq, hk, false_and, false_or]

theorem maxKey_spec (r : Results) (top : Int) (h1 : (r.lookup top).isSome) (h2 : ∀ k, (r.lookup k).isSome → k ≤ top) : maxKey r = .ok top := by
  have aux : ∀ (r : Results) (m : Int), m ≤ top → (∀ x ∈ r, x.1 ≤ top) → (m = top ∨ ∃ x ∈ r, x.1 = top) →
      r.foldl (fun m x => if m < x.1 then x.1 else m) m = top := by
    intro r
    induction r with
    | nil => intro m _ _ h; rcases h with h | ⟨x, hx, _⟩; exact h; simp at hx
    | cons y r ih =>
      intro m hm hr h
      rw [List.foldl_cons]
      have hy := hr y (by simp)
      refine ih _ (by split <;> omega) (fun x hx => hr x (List.mem_cons_of_mem _ hx)) ?_
      rcases h with h | ⟨x, hx, hxt⟩
      · left; rw [if_neg (by omega)]; exact h
      · rcases List.mem_cons.1 hx with rfl | hx
        · left; split <;> omega
        · exact Or.inr ⟨x, hx, hxt⟩
  cases r with
  | nil => simp at h1
  | cons y r =>
    obtain ⟨k, y⟩ := y
    rw [maxKey, aux r k]
    · exact h2 k (by simp)
    · intro x hx
      exact h2 x.1 ((lookup_isSome _ _).2 ⟨x.2, by simp [hx]⟩)
    · obtain ⟨x, hx⟩ := (lookup_isSome _ _).1 h1
      rcases List.mem_cons.1 hx with e | hx
      · left; simp only [Prod.mk.injEq] at e; exact e.1.symm
      · exact Or.inr ⟨_, hx, rfl⟩

/-- the record of the games with handicap `h` -/
def tally (hist : Games) (h : Int) : Rec := ⟨wins hist h, played hist h, winMoves hist h, lossMoves hist h⟩

/-- the dictionary after the games `hist`, whose highest handicap is `top - 1` -/
structure Book (hist : Games) (top : Int) (r : Results) : Prop where
  nonneg : 0 ≤ top
  look : ∀ h, r.lookup h = if 0 ≤ h ∧ h ≤ top then some (tally hist h) else none
  below : ∀ g ∈ hist, 0 ≤ g.1 ∧ g.1 < top
  reach : 0 < top → ∃ g ∈ hist, g.1 = top - 1

theorem book_start : Book [] 0 start where
  nonneg := le_refl _
  look := by
    intro h
    by_cases hh : h = 0
    · subst hh; simp [start, tally, wins, played, winMoves, lossMoves, on]
    · simp only [start, List.lookup, beq_eq_false_iff_ne.2 hh]
      rw [if_neg (by omega)]
  below := by simp
  reach := by intro h; omega

variable {K : Type} [Field K] [LinearOrder K] [IsStrictOrderedRing K] {hist : Games} {top : Int} {r : Results}

theorem get_book (hb : Book hist top r) {h : Int} (h0 : 0 ≤ h) (h1 : h ≤ top) : get r h = .ok (tally hist h) := by
  unfold get
  rw [hb.look h, if_pos ⟨h0, h1⟩]

/-- the balance of a record -/
def bal (K : Type) [Field K] (x : Rec) : K :=
  if x.t = 0 then 0
  else 2 * (x.w : K) / x.t - 1 + (if x.wms = 0 then 0 else 1 / (10 * (x.t : K) * x.wms)) - (if x.lms = 0 then 0 else 1 / ((x.t : K) * x.lms))

omit [LinearOrder K] [IsStrictOrderedRing K] in
theorem winProp_get [CharZero K] {h : Int} {x : Rec} (hg : get r h = .ok x) : winProp K r h = .ok (bal K x) := by
  obtain ⟨w, t, wms, lms⟩ := x
  unfold winProp
  rw [hg]
  unfold bal
  by_cases hp : t = 0
  · simp [hp]
  · have hp' : t > 0 := Nat.pos_of_ne_zero hp
    have hpk : (t : K) ≠ 0 := Nat.cast_ne_zero.2 hp
    have e : ((w : K) - (t : K) / 2) / ((t : K) / 2) = 2 * (w : K) / t - 1 := by
      field_simp
    by_cases hw : wms = 0
    · by_cases hl : lms = 0
      · simp [hw, hl, hp, hp', e]
      · simp [hw, hl, hp, hp', e, Nat.pos_of_ne_zero hl]
    · have hwk : (wms : K) ≠ 0 := Nat.cast_ne_zero.2 hw
      have e2 : (1 : K) / 10 / ((t : K) * (wms : K)) = 1 / (10 * (t : K) * wms) := by
        field_simp
      by_cases hl : lms = 0
      · simp only [Nat.pos_of_ne_zero hw, hl, if_true, hw, if_false, e2, hp, hp', e, gt_iff_lt, lt_irrefl, sub_zero]
      · simp only [Nat.pos_of_ne_zero hw, Nat.pos_of_ne_zero hl, hl, if_true, hw, if_false, e2, gt_iff_lt, hp, hp', e]

theorem winProp_book (hb : Book hist top r) {h : Int} (h0 : 0 ≤ h) (h1 : h ≤ top) : winProp K r h = .ok (balance K hist h) :=
  winProp_get (get_book hb h0 h1)

variable {cfg : Cfg}

theorem goUp_get {h : Int} {x : Rec} (hg : get r h = .ok x) : goUp K cfg r h = .ok (decide (cfg.minEvals ≤ x.t ∧ 3 / 5 < bal K x)) := by
  unfold goUp
  rw [hg, winProp_get (K := K) hg]
  by_cases hm : cfg.minEvals ≤ x.t
  · refine (if_pos hm).trans ?_; simp [hm]
  · refine (if_neg hm).trans ?_; simp [hm]

theorem goDown_get {h : Int} {x : Rec} (hg : get r h = .ok x) : goDown K cfg r h = .ok (decide (cfg.minEvals ≤ x.t ∧ bal K x < -(3 / 5))) := by
  unfold goDown
  rw [hg, winProp_get (K := K) hg]
  by_cases hm : cfg.minEvals ≤ x.t
  · refine (if_pos hm).trans ?_; simp [hm]
  · refine (if_neg hm).trans ?_; simp [hm]

open Classical in
theorem goUp_book (hb : Book hist top r) {h : Int} (h0 : 0 ≤ h) (h1 : h ≤ top) : goUp K cfg r h = .ok (decide (Up K cfg hist h)) := by
  rw [goUp_get (get_book hb h0 h1)]
  congr 1
  rw [decide_eq_decide]
  exact Iff.rfl

open Classical in
theorem goDown_book (hb : Book hist top r) {h : Int} (h0 : 0 ≤ h) (h1 : h ≤ top) : goDown K cfg r h = .ok (decide (Down K cfg hist h)) := by
  rw [goDown_get (get_book hb h0 h1)]
  congr 1
  rw [decide_eq_decide]
  exact Iff.rfl

theorem enough_book (hb : Book hist top r) {h : Int} (h0 : 0 ≤ h) (h1 : h ≤ top) : enough cfg r h = .ok (decide (2 * cfg.minEvals ≤ played hist h)) := by
  unfold enough
  rw [get_book hb h0 h1]
  rfl

theorem best_book (hb : Book hist top r) : bestHandicap r = .ok (top - 1) := by
  unfold bestHandicap
  rw [maxKey_spec r top]
  · rw [hb.look, if_pos ⟨hb.nonneg, le_refl _⟩]; rfl
  · intro k hk
    rw [hb.look] at hk
    split at hk
    · rename_i h; exact h.2
    · simp at hk

theorem highest_iff (hb : Book hist top r) (h : Int) : Highest hist h ↔ h = top - 1 ∧ 0 < top := by
  constructor
  · rintro ⟨⟨g, hg, rfl⟩, hmax⟩
    have := hb.below g hg
    obtain ⟨g', hg', e⟩ := hb.reach (by omega)
    have := hmax g' hg'
    exact ⟨by omega, by omega⟩
  · rintro ⟨rfl, ht⟩
    exact ⟨hb.reach ht, fun g hg => by have := hb.below g hg; omega⟩

theorem pyAnd_ok (a b : Bool) : pyAnd (.ok a) (.ok b) = .ok (a && b) := by cases a <;> rfl
theorem pyOr_ok (a b : Bool) : pyOr (.ok a) (.ok b) = .ok (a || b) := by cases a <;> rfl

open Classical in
theorem fluctuating_book (hb : Book hist top r) :
    fluctuating K cfg r = .ok (decide (∃ h, Highest hist h ∧ Between K cfg hist h)) := by
  unfold fluctuating
  rw [best_book hb]
  simp only
  have hiff : (∃ h, Highest hist h ∧ Between K cfg hist h) ↔ 0 < top ∧ Between K cfg hist (top - 1) := by
    constructor
    · rintro ⟨h, h1, h2⟩
      obtain ⟨rfl, ht⟩ := (highest_iff hb h).1 h1
      exact ⟨ht, h2⟩
    · rintro ⟨ht, h2⟩
      exact ⟨_, (highest_iff hb _).2 ⟨rfl, ht⟩, h2⟩
  by_cases hp : top - 1 > 0
  · rw [if_pos hp, enough_book hb (by omega) (by omega), enough_book hb (by omega) (by omega), goUp_book hb (by omega) (by omega),
      goDown_book hb (by omega) (by omega), pyAnd_ok, pyAnd_ok, pyAnd_ok]
    congr 1
    rw [← Bool.decide_and, ← Bool.decide_and, ← Bool.decide_and, decide_eq_decide, hiff]
    unfold Between
    constructor
    · rintro ⟨⟨a, b⟩, c, d⟩; exact ⟨by omega, by omega, a, b, c, d⟩
    · rintro ⟨_, _, a, b, c, d⟩; exact ⟨⟨a, b⟩, c, d⟩
  · rw [if_neg hp]
    congr 1
    symm
    rw [decide_eq_false_iff_not, hiff]
    rintro ⟨_, h, _⟩
    exact hp h

open Classical in
theorem stable_book (hb : Book hist top r) {c : Int} (h0 : 0 ≤ c) (h1 : c ≤ top) :
    stable K cfg r c = .ok (decide (Settled K cfg hist c)) := by
  unfold stable
  rw [fluctuating_book hb, enough_book hb h0 h1, goUp_book hb h0 h1, goDown_book hb h0 h1]
  simp only [pyNot, pyAnd_ok, pyOr_ok]
  congr 1
  rw [Bool.eq_iff_iff]
  rw [decide_eq_true_iff (p := Settled K cfg hist c)]
  simp only [Bool.or_eq_true, Bool.and_eq_true, decide_eq_true_eq, Bool.not_eq_true', decide_eq_false_iff_not, Settled, ge_iff_le, and_or_left]

theorem on_append (hist : Games) (g : Int × Bool × Nat) (h : Int) :
    on (hist ++ [g]) h = if g.1 = h then on hist h ++ [g] else on hist h := by
  unfold on
  rw [List.filter_append]
  by_cases hg : g.1 = h
  · simp [hg]
  · simp [hg]

theorem tally_append (hist : Games) (c : Int) (win : Bool) (moves : Nat) (h : Int) :
    tally (hist ++ [(c, win, moves)]) h =
      if h = c then
        (if win then { w := (tally hist h).w + 1, t := (tally hist h).t + 1, wms := (tally hist h).wms + moves, lms := (tally hist h).lms }
          else { w := (tally hist h).w, t := (tally hist h).t + 1, wms := (tally hist h).wms, lms := (tally hist h).lms + moves })
      else tally hist h := by
  unfold tally wins played winMoves lossMoves
  rw [on_append]
  by_cases hc : c = h
  · subst hc
    cases win <;> simp
  · have hc' : ¬ h = c := fun e => hc e.symm
    simp [hc, hc']

theorem tally_none (hist : Games) (h : Int) (hn : ∀ g ∈ hist, g.1 ≠ h) : tally hist h = ⟨0, 0, 0, 0⟩ := by
  have : on hist h = [] := by
    unfold on
    rw [List.filter_eq_nil_iff]
    intro g hg
    simpa using hn g hg
  simp [tally, wins, played, winMoves, lossMoves, this]

theorem addResult_book (hb : Book hist top r) {c : Int} (h0 : 0 ≤ c) (h1 : c ≤ top) (win : Bool) (moves : Nat) :
    ∃ r', addResult r c win moves = .ok r' ∧ Book (hist ++ [(c, win, moves)]) (if c = top then top + 1 else top) r' := by
  have hsome : (r.lookup (c + 1)).isSome = decide (c ≠ top) := by
    rw [hb.look]
    by_cases hc : c = top
    · subst hc; rw [if_neg (by omega)]; simp
    · rw [if_pos ⟨by omega, by omega⟩]; simp [hc]
  have hlook1 : ∀ h, (if (r.lookup (c + 1)).isSome then r else put r (c + 1) ⟨0, 0, 0, 0⟩).lookup h =
      if 0 ≤ h ∧ h ≤ (if c = top then top + 1 else top) then some (tally hist h) else none := by
    intro h
    rw [hsome]
    by_cases hc : c = top
    · simp only [hc, ne_eq, not_true_eq_false, decide_false, Bool.false_eq_true, if_false, if_true]
      rw [lookup_put, hb.look]
      by_cases hh : h = top + 1
      · rw [if_pos hh, if_pos ⟨by omega, by omega⟩, tally_none]
        intro g hg; have := hb.below g hg; omega
      · rw [if_neg hh]
        by_cases hx : 0 ≤ h ∧ h ≤ top
        · rw [if_pos hx, if_pos ⟨hx.1, by omega⟩]
        · rw [if_neg hx, if_neg (by omega)]
    · simp only [hc, ne_eq, not_false_eq_true, decide_true, if_true, if_false]
      exact hb.look h
  have hget : get (if (r.lookup (c + 1)).isSome then r else put r (c + 1) ⟨0, 0, 0, 0⟩) c = .ok (tally hist c) := by
    unfold get
    rw [hlook1, if_pos ⟨h0, by split <;> omega⟩]
  unfold addResult
  simp only [hget]
  refine ⟨_, rfl, ?_⟩
  constructor
  · have := hb.nonneg; split <;> omega
  · intro h
    rw [lookup_put, hlook1, tally_append]
    by_cases hh : h = c
    · subst hh
      have hx : 0 ≤ h ∧ h ≤ (if h = top then top + 1 else top) := ⟨h0, by split <;> omega⟩
      rw [if_pos hx]
      cases win <;> simpa using hx
    · simp [hh]
  · intro g hg
    rcases List.mem_append.1 hg with hg | hg
    · have := hb.below g hg; split <;> omega
    · simp only [List.mem_singleton] at hg
      subst hg
      simp only
      split <;> omega
  · intro _
    by_cases hc : c = top
    · rw [if_pos hc]; exact ⟨(c, win, moves), by simp, by simp only; omega⟩
    · rw [if_neg hc]
      obtain ⟨g, hg, e⟩ := hb.reach (by omega)
      exact ⟨g, List.mem_append_left _ hg, e⟩

theorem nextLevel_book (hb : Book hist top r) {c : Int} (h0 : 0 ≤ c) (h1 : c ≤ top) : nextLevel K cfg r c = .ok (next K cfg hist c) := by
  classical
  unfold nextLevel next
  rw [goUp_book hb h0 h1, goDown_book hb h0 h1, pyAnd_ok, pyAnd_ok, ← Bool.decide_and, ← Bool.decide_and]
  by_cases hu : Up K cfg hist c ∧ c < cfg.maxHandicaps
  · rw [decide_eq_true hu, if_pos hu]
  · rw [decide_eq_false hu, if_neg hu]
    by_cases hd : Down K cfg hist c ∧ 1 < c
    · have : decide (Down K cfg hist c ∧ c > 1) = true := decide_eq_true hd
      rw [this, if_pos hd]
    · have : decide (Down K cfg hist c ∧ c > 1) = false := decide_eq_false hd
      rw [this, if_neg hd]

theorem next_range (cfg : Cfg) (hist : Games) {c : Int} (h0 : 0 ≤ c) : 0 ≤ next K cfg hist c ∧ next K cfg hist c ≤ c + 1 := by
  unfold next
  split
  · omega
  · split <;> omega

/-- the loop runs the procedure -/
theorem loop_run (outcome : Nat → Int → Bool × Nat) : ∀ (left : Nat) (c : Int) (top : Int) (r : Results) (hist : Games),
    Book hist top r → 0 ≤ c → c ≤ top → Run K cfg outcome hist c → hist.length + left = cfg.maxGames →
    ∃ r' c' hist' top', loop K cfg outcome left hist.length c r hist = .ok (r', c', hist') ∧ Book hist' top' r' ∧
      Run K cfg outcome hist' c' ∧ (hist'.length = cfg.maxGames ∨ Settled K cfg hist' c') ∧ hist'.length ≤ cfg.maxGames := by
  intro left
  induction left with
  | zero =>
    intro c top r hist hb _ _ hr hl
    exact ⟨r, c, hist, top, rfl, hb, hr, Or.inl (by omega), by omega⟩
  | succ left ih =>
    intro c top r hist hb h0 h1 hr hl
    classical
    rw [loop, stable_book hb h0 h1]
    by_cases hs : Settled K cfg hist c
    · rw [decide_eq_true hs]
      exact ⟨r, c, hist, top, rfl, hb, hr, Or.inr hs, by omega⟩
    · rw [decide_eq_false hs]
      obtain ⟨r', e1, hb'⟩ := addResult_book hb h0 h1 (outcome hist.length c).1 (outcome hist.length c).2
      simp only [e1]
      have h1' : c ≤ (if c = top then top + 1 else top) := by split <;> omega
      rw [nextLevel_book hb' h0 h1']
      simp only
      have hr' := Run.play hr hs (by omega)
      have hn := next_range (K := K) cfg (hist ++ [(c, (outcome hist.length c).1, (outcome hist.length c).2)]) h0
      have hle : next K cfg (hist ++ [(c, (outcome hist.length c).1, (outcome hist.length c).2)]) c ≤ (if c = top then top + 1 else top) := by
        split
        · omega
        · omega
      have := ih _ _ r' _ hb' hn.1 hle hr' (by simp; omega)
      simpa using this

theorem f_run (cfg : Cfg) (outcome : Nat → Int → Bool × Nat) :
    ∃ r' c' hist' top', loop K cfg outcome cfg.maxGames 0 0 start [] = .ok (r', c', hist') ∧ Book hist' top' r' ∧
      Run K cfg outcome hist' c' ∧ (hist'.length = cfg.maxGames ∨ Settled K cfg hist' c') ∧ hist'.length ≤ cfg.maxGames :=
  loop_run outcome cfg.maxGames 0 0 start [] book_start (le_refl _) (le_refl _) Run.start (by simp)

omit [IsStrictOrderedRing K] in
theorem not_settled_nil (hm : 1 ≤ cfg.minEvals) (c : Int) : ¬ Settled K cfg [] c := by
  rintro (⟨h, ⟨⟨g, hg, _⟩, _⟩, _⟩ | ⟨h, _⟩)
  · simp at hg
  · simp [played, on] at h; omega

theorem final_book (hb : Book hist top r) (ht : 0 < top) :
    ∃ v, final K cfg r = .ok v ∧
      (Between K cfg hist (top - 1) → v = ((top - 1 : Int) : K) - 1 / 2 + (balance K hist (top - 1) + balance K hist (top - 1 - 1)) / 2) ∧
      (¬ Between K cfg hist (top - 1) → v = ((top - 1 : Int) : K) + balance K hist (top - 1)) := by
  classical
  have hiff : (∃ h, Highest hist h ∧ Between K cfg hist h) ↔ Between K cfg hist (top - 1) := by
    constructor
    · rintro ⟨h, h1, h2⟩
      obtain ⟨rfl, _⟩ := (highest_iff hb h).1 h1
      exact h2
    · intro h2
      exact ⟨_, (highest_iff hb _).2 ⟨rfl, ht⟩, h2⟩
  unfold final
  rw [best_book hb, fluctuating_book (K := K) (cfg := cfg) hb]
  by_cases hf : Between K cfg hist (top - 1)
  · rw [decide_eq_true (hiff.2 hf)]
    have h0 := hf.1
    simp only [winProp_book (K := K) hb (show (0 : Int) ≤ top - 1 by omega) (by omega),
      winProp_book (K := K) hb (show (0 : Int) ≤ top - 1 - 1 by omega) (by omega)]
    exact ⟨_, rfl, fun _ => rfl, fun h => absurd hf h⟩
  · rw [decide_eq_false (fun h => hf (hiff.1 h))]
    simp only [winProp_book (K := K) hb (show (0 : Int) ≤ top - 1 by omega) (by omega)]
    exact ⟨_, rfl, fun h => absurd h hf, fun _ => rfl⟩

/-! ## bounds -/

omit [Field K] [LinearOrder K] [IsStrictOrderedRing K] in
theorem wins_le (hist : Games) (h : Int) : wins hist h ≤ played hist h := List.length_filter_le _ _

theorem balance_bounds (hist : Games) (h : Int) : -2 ≤ balance K hist h ∧ balance K hist h ≤ 11 / 10 := by
  unfold balance
  split
  · constructor <;> norm_num
  · rename_i hp
    have hp1 : (1 : K) ≤ played hist h := by exact_mod_cast Nat.one_le_iff_ne_zero.2 hp
    have hp0 : (0 : K) < played hist h := by linarith
    have hw : (wins hist h : K) ≤ played hist h := by exact_mod_cast wins_le hist h
    have hw0 : (0 : K) ≤ wins hist h := by positivity
    have a1 : (0 : K) ≤ 2 * (wins hist h : K) / played hist h := by positivity
    have a2 : 2 * (wins hist h : K) / played hist h ≤ 2 := by rw [div_le_iff₀ hp0]; linarith
    have b : (0 : K) ≤ (if winMoves hist h = 0 then 0 else 1 / (10 * (played hist h : K) * winMoves hist h)) ∧
        (if winMoves hist h = 0 then 0 else 1 / (10 * (played hist h : K) * winMoves hist h)) ≤ (1 / 10 : K) := by
      split
      · constructor <;> norm_num
      · rename_i hn
        have h1 : (1 : K) ≤ winMoves hist h := by exact_mod_cast Nat.one_le_iff_ne_zero.2 hn
        have h2 : (1 : K) ≤ (played hist h : K) * winMoves hist h := by nlinarith
        refine ⟨by positivity, ?_⟩
        exact one_div_le_one_div_of_le (by norm_num) (by rw [mul_assoc]; linarith)
    have c : (0 : K) ≤ (if lossMoves hist h = 0 then 0 else 1 / ((played hist h : K) * lossMoves hist h)) ∧
        (if lossMoves hist h = 0 then 0 else 1 / ((played hist h : K) * lossMoves hist h)) ≤ (1 : K) := by
      split
      · constructor <;> norm_num
      · rename_i hn
        have h1 : (1 : K) ≤ lossMoves hist h := by exact_mod_cast Nat.one_le_iff_ne_zero.2 hn
        have h2 : (1 : K) ≤ (played hist h : K) * lossMoves hist h := by nlinarith
        refine ⟨by positivity, ?_⟩
        rw [div_le_one (by linarith)]; exact h2
    constructor
    · linarith [b.1, c.2]
    · linarith [b.2, c.1]

omit [IsStrictOrderedRing K] in
/-- the handicaps stay in range, and once positive stay positive -/
theorem run_range {outcome : Nat → Int → Bool × Nat} {c : Int} (hr : Run K cfg outcome hist c) :
    (0 ≤ c ∧ c ≤ max 0 cfg.maxHandicaps) ∧ (∀ g ∈ hist, 0 ≤ g.1 ∧ g.1 ≤ max 0 cfg.maxHandicaps) ∧ (∀ g ∈ hist, 0 < g.1 → 0 < c) := by
  induction hr with
  | start => simp
  | @play hist c h hs hm ih =>
    obtain ⟨i1, i2, i3⟩ := ih
    refine ⟨?_, ?_, ?_⟩
    · unfold next
      split
      · omega
      · split <;> omega
    · intro g hg
      rcases List.mem_append.1 hg with hg | hg
      · exact i2 g hg
      · simp only [List.mem_singleton] at hg; subst hg; exact i1
    · intro g hg hpos
      have hc : 0 < c := by
        rcases List.mem_append.1 hg with hg | hg
        · exact i3 g hg hpos
        · simp only [List.mem_singleton] at hg; subst hg; exact hpos
      unfold next
      split
      · omega
      · split <;> omega

/-! ## concrete courses -/

omit [Field K] [LinearOrder K] [IsStrictOrderedRing K] in
theorem tally_replicate (n : Nat) (c : Int) (win : Bool) (m : Nat) (h : Int) :
    tally (List.replicate n (c, win, m)) h = if h = c then (if win then ⟨n, n, n * m, 0⟩ else ⟨0, n, 0, n * m⟩) else ⟨0, 0, 0, 0⟩ := by
  induction n with
  | zero => cases win <;> simp [tally, wins, played, winMoves, lossMoves, on]
  | succ n ih =>
    rw [List.replicate_succ', tally_append, ih]
    by_cases hc : h = c
    · cases win <;> simp [hc, Nat.succ_mul]
    · simp [hc]

omit [Field K] [LinearOrder K] [IsStrictOrderedRing K] in
theorem tally_add (a b : Games) (h : Int) : tally (a ++ b) h =
    ⟨(tally a h).w + (tally b h).w, (tally a h).t + (tally b h).t, (tally a h).wms + (tally b h).wms, (tally a h).lms + (tally b h).lms⟩ := by
  simp [tally, wins, played, winMoves, lossMoves, on]

/-- a player who loses all games, each after `m` moves -/
def loser (m : Nat) : Nat → Int → Bool × Nat := fun _ _ => (false, m)

/-- a player who wins without a handicap and loses with one -/
def waverer (m : Nat) : Nat → Int → Bool × Nat := fun _ h => (decide (h ≤ 0), m)

theorem balance_tally (hist : Games) (h : Int) : balance K hist h = bal K (tally hist h) := rfl

theorem up_tally (hist : Games) (h : Int) : Up K cfg hist h ↔ cfg.minEvals ≤ (tally hist h).t ∧ 3 / 5 < bal K (tally hist h) := Iff.rfl

theorem down_tally (hist : Games) (h : Int) : Down K cfg hist h ↔ cfg.minEvals ≤ (tally hist h).t ∧ bal K (tally hist h) < -(3 / 5) := Iff.rfl

theorem bal_lost (n m : Nat) (hn : 0 < n) (hm : 0 < m) : bal K ⟨0, n, 0, n * m⟩ = -1 - 1 / ((n : K) * ((n * m : Nat) : K)) := by
  have h1 : n ≠ 0 := by omega
  have h2 : n * m ≠ 0 := Nat.mul_ne_zero h1 (by omega)
  simp [bal, h1, Nat.pos_iff_ne_zero.1 hm]

theorem bal_lost_lt (n m : Nat) (hn : 0 < n) (hm : 0 < m) : bal K ⟨0, n, 0, n * m⟩ < -1 := by
  rw [bal_lost n m hn hm]
  have : (0 : K) < 1 / ((n : K) * ((n * m : Nat) : K)) := by positivity
  linarith

theorem bal_won (n m : Nat) (hn : 0 < n) : 1 ≤ bal K ⟨n, n, n * m, 0⟩ := by
  have h1 : n ≠ 0 := by omega
  have hnk : (n : K) ≠ 0 := Nat.cast_ne_zero.2 h1
  unfold bal
  simp only [h1, if_false, if_true, sub_zero]
  have e : 2 * (n : K) / n = 2 := by field_simp
  rw [e]
  split
  · norm_num
  · have : (0 : K) ≤ 1 / (10 * (n : K) * ((n * m : Nat) : K)) := by positivity
    linarith

theorem bal_zero : bal K ⟨0, 0, 0, 0⟩ = 0 := by simp [bal]

/-- how the loser's evaluation goes -/
theorem loser_run (m : Nat) (hm : 0 < m) {hist : Games} {c : Int} (hr : Run K cfg (loser m) hist c) :
    hist = List.replicate hist.length (0, false, m) ∧ c = 0 := by
  induction hr with
  | start => simp
  | @play hist c h hs hlt ih =>
    obtain ⟨e, rfl⟩ := ih
    have e' : hist ++ [((0 : Int), loser m hist.length 0)] = List.replicate (hist.length + 1) (0, false, m) := by
      rw [List.replicate_succ', ← e]; rfl
    rw [e']
    refine ⟨by simp, ?_⟩
    unfold next
    rw [if_neg, if_neg (fun h => by omega)]
    rintro ⟨hu, _⟩
    rw [up_tally, tally_replicate] at hu
    simp only [if_true, Bool.false_eq_true, if_false] at hu
    have := bal_lost_lt (K := K) (hist.length + 1) m (by omega) hm
    linarith [hu.2]

/-- the waverer's games: `a` without and `b` with one handicap stone -/
def waver (m a b : Nat) : Games := List.replicate a (0, true, m) ++ List.replicate b (1, false, m)

theorem tally_waver (m a b : Nat) (h : Int) : tally (waver m a b) h =
    if h = 0 then ⟨a, a, a * m, 0⟩ else if h = 1 then ⟨0, b, 0, b * m⟩ else ⟨0, 0, 0, 0⟩ := by
  unfold waver
  rw [tally_add, tally_replicate, tally_replicate]
  by_cases h0 : h = 0
  · simp [h0]
  · by_cases h1 : h = 1
    · simp [h1]
    · simp [h0, h1]

/-- how the waverer's evaluation goes -/
theorem waverer_run (m : Nat) (hm : 0 < m) (hmin : 1 ≤ cfg.minEvals) (hmax : 1 ≤ cfg.maxHandicaps) {hist : Games} {c : Int}
    (hr : Run K cfg (waverer m) hist c) :
    ∃ a b, hist = waver m a b ∧ ((a < cfg.minEvals ∧ b = 0 ∧ c = 0) ∨ (a = cfg.minEvals ∧ c = 1)) := by
  induction hr with
  | start => exact ⟨0, 0, rfl, Or.inl ⟨by omega, rfl, rfl⟩⟩
  | @play hist c h hs hlt ih =>
    obtain ⟨a, b, rfl, ⟨ha, rfl, rfl⟩ | ⟨ha, rfl⟩⟩ := ih
    · have e : waver m a 0 ++ [((0 : Int), waverer m (waver m a 0).length 0)] = waver m (a + 1) 0 := by
        simp [waver, waverer, List.replicate_succ']
      rw [e]
      refine ⟨a + 1, 0, rfl, ?_⟩
      have hb := bal_won (K := K) (a + 1) m (by omega)
      by_cases hfull : a + 1 = cfg.minEvals
      · right
        refine ⟨hfull, ?_⟩
        unfold next
        rw [if_pos]
        · rfl
        · refine ⟨?_, by omega⟩
          rw [up_tally, tally_waver]
          simp only [if_true]
          exact ⟨by omega, by linarith⟩
      · left
        refine ⟨by omega, rfl, ?_⟩
        unfold next
        rw [if_neg, if_neg (fun h => by omega)]
        rintro ⟨hu, _⟩
        rw [up_tally, tally_waver] at hu
        have := hu.1
        simp only [if_true] at this
        omega
    · have e : waver m a b ++ [((1 : Int), waverer m (waver m a b).length 1)] = waver m a (b + 1) := by
        simp [waver, waverer, List.replicate_succ']
      rw [e]
      refine ⟨a, b + 1, rfl, Or.inr ⟨ha, ?_⟩⟩
      unfold next
      rw [if_neg, if_neg (fun h => by omega)]
      rintro ⟨hu, _⟩
      rw [up_tally, tally_waver] at hu
      have hb := bal_lost_lt (K := K) (b + 1) m (by omega) hm
      have := hu.2
      simp only [one_ne_zero, if_true, if_false] at this
      linarith

theorem waverer_not_settled (m : Nat) (hm : 0 < m) (hmin : 1 ≤ cfg.minEvals) {a b : Nat} {c : Int}
    (hc : (a < cfg.minEvals ∧ b = 0 ∧ c = 0) ∨ (a = cfg.minEvals ∧ c = 1)) : ¬ Settled K cfg (waver m a b) c := by
  have hp : ∀ h, played (waver m a b) h = (tally (waver m a b) h).t := fun _ => rfl
  rintro (⟨h, _, hpos, _, h2, hu, _⟩ | ⟨h2, h3⟩)
  · rw [hp, tally_waver] at h2
    rw [up_tally, tally_waver] at hu
    by_cases h1 : h - 1 = 0
    · rw [if_pos h1] at h2
      simp only at h2
      omega
    · rw [if_neg h1] at hu h2
      by_cases h1' : h - 1 = 1
      · rw [if_pos h1'] at hu h2
        simp only at hu h2
        have := bal_lost_lt (K := K) b m (by omega) hm
        linarith [hu.2]
      · rw [if_neg h1'] at h2
        simp only at h2
        omega
  · rw [hp, tally_waver] at h2
    rcases hc with ⟨ha, rfl, rfl⟩ | ⟨ha, rfl⟩
    · simp only [if_true] at h2; omega
    · rw [if_neg (by omega), if_pos rfl] at h2
      simp only at h2
      have hb := bal_lost_lt (K := K) b m (by omega) hm
      rw [up_tally, down_tally, tally_waver, if_neg (by omega), if_pos rfl] at h3
      simp only at h3
      rcases h3 with ⟨_, h3⟩ | ⟨⟨_, h3⟩, _⟩ | ⟨_, h3⟩
      · exact h3 ⟨by omega, by linarith⟩
      · linarith
      · omega

end Verif.Handicap

namespace Verif.Capture
open Verif.DataSet (Err)
open Verif.Capture.Spec

/-- the points of the second line -/
def SecondLine (s : Nat) (p : Pos) : Prop :=
  (1 ≤ p.1 ∧ p.1 + 2 ≤ s ∧ 1 ≤ p.2 ∧ p.2 + 2 ≤ s) ∧ (p.1 = 1 ∨ p.1 + 2 = s ∨ p.2 = 1 ∨ p.2 + 2 = s)

theorem mem_handicapPoints {s : Nat} (hs : 2 < s) (p : Pos) : p ∈ handicapPoints s ↔ SecondLine s p := by
  obtain ⟨x, y⟩ := p
  unfold handicapPoints SecondLine
  simp only [List.mem_append, List.mem_singleton, Prod.mk.injEq]
  constructor
  · rintro ((h | h) | h)
    · omega
    · split at h
      · simp at h; omega
      · simp at h
    · split at h
      · rw [List.mem_flatMap] at h
        obtain ⟨i, hi, h⟩ := h
        rw [List.mem_range'_1] at hi
        simp at h
        omega
      · simp at h
  · rintro ⟨⟨h1, h2, h3, h4⟩, h5⟩
    by_cases hx : x = 1 ∧ y = 1
    · exact Or.inl (Or.inl hx)
    · by_cases hc : (x = 1 ∨ x + 2 = s) ∧ (y = 1 ∨ y + 2 = s)
      · left; right
        rw [if_pos (by omega)]
        simp
        omega
      · right
        rw [if_pos (by omega), List.mem_flatMap]
        by_cases hx1 : x = 1 ∨ x + 2 = s
        · exact ⟨y, by rw [List.mem_range'_1]; omega, by simp; omega⟩
        · exact ⟨x, by rw [List.mem_range'_1]; omega, by simp; omega⟩

theorem handicapPoints_nodup {s : Nat} (hs : 2 < s) : (handicapPoints s).Nodup := by
  unfold handicapPoints
  rw [List.nodup_append', List.nodup_append']
  refine ⟨⟨by simp, ?_, ?_⟩, ?_, ?_⟩
  · split
    · simp; omega
    · simp
  · split
    · simp; omega
    · simp
  · split
    · rw [List.nodup_flatMap]
      refine ⟨?_, ?_⟩
      · intro i hi
        rw [List.mem_range'_1] at hi
        simp
        omega
      · refine List.Pairwise.imp_of_mem ?_ (List.nodup_range' (s := 2) (n := s - 2 - 2))
        intro i j hi hj hij
        rw [List.mem_range'_1] at hi hj
        simp only [Function.onFun, List.disjoint_left]
        rintro ⟨x, y⟩ h1 h2
        simp at h1 h2
        omega
    · simp
  · rw [List.disjoint_left]
    rintro ⟨x, y⟩ h1 h2
    split at h2
    · rename_i h4
      rw [if_pos (by omega)] at h1
      rw [List.mem_flatMap] at h2
      obtain ⟨i, hi, h2⟩ := h2
      rw [List.mem_range'_1] at hi
      simp at h1 h2
      omega
    · simp at h2

theorem handicapPoints_length {s : Nat} (hs : 3 < s) : (handicapPoints s).length = 4 * s - 12 := by
  unfold handicapPoints
  rw [if_pos hs]
  split
  · simp [List.length_flatMap]; omega
  · simp; omega

/-- a point of the second line has a neighbour on the first line -/
theorem border {s : Nat} {p : Pos} (h : SecondLine s p) : ∃ q, Point s q ∧ Adj p q ∧ ¬ SecondLine s q := by
  obtain ⟨x, y⟩ := p
  obtain ⟨⟨h1, h2, h3, h4⟩, h5⟩ := h
  simp only at *
  rcases h5 with h | h | h | h
  · exact ⟨(0, y), ⟨by omega, by simp only; omega⟩, by simp [Adj]; omega, fun h => by have := h.1.1; simp at this⟩
  · exact ⟨(x + 1, y), ⟨by simp only; omega, by simp only; omega⟩, by simp [Adj], fun h => by have := h.1.2.1; simp only at this; omega⟩
  · exact ⟨(x, 0), ⟨by simp only; omega, by omega⟩, by simp [Adj]; omega, fun h => by have := h.1.2.2.1; simp at this⟩
  · exact ⟨(x, y + 1), ⟨by simp only; omega, by simp only; omega⟩, by simp [Adj], fun h => by have := h.1.2.2.2; simp only at this; omega⟩

/-- a board with stones of colour `c` on the points `done` only -/
structure Given (s : Nat) (c : Color) (done : List Pos) (g : Game) : Prop where
  inv : Inv g
  size : g.size = s
  board : ∀ p, g.b p = if p ∈ done then c.cell else .empty
  winner : g.winner = none
  moves : g.movesDone = 0

theorem given_step {s : Nat} {c : Color} {done : List Pos} {g : Game} (hg : Given s c done g) {pos : Pos} (hnew : pos ∉ done)
    (hline : SecondLine s pos) (hdone : ∀ p ∈ done, SecondLine s p) :
    isLegal g c pos = .ok true ∧ ∃ g', setStone g c pos = .ok g' ∧ Given s c (done ++ [pos]) g' ∧ g'.suicideenabled = g.suicideenabled := by
  have hP : Point g.size pos := by rw [hg.size]; exact ⟨by have := hline.1; omega, by have := hline.1; omega⟩
  have hpos : g.b pos = .empty := by rw [hg.board, if_neg hnew]
  obtain ⟨q, hq1, hq2, hq3⟩ := border hline
  have hqn : q ∉ done := fun h => hq3 (hdone q h)
  have hqp : q ≠ pos := fun e => hq3 (e ▸ hline)
  have hqb : g.b q = .empty := by rw [hg.board, if_neg hqn]
  constructor
  · unfold isLegal
    rw [(onBoard_iff _ _).2 hP]
    simp only [Bool.not_true, Bool.false_eq_true, if_false, hpos, ne_eq, not_true_eq_false]
    split
    · have : suicide g c pos = .ok false := by
        unfold suicide
        rw [if_pos]
        rw [List.any_eq_true]
        exact ⟨q, (mem_neighbors _ _ _ hP).2 ⟨by rw [hg.size]; exact hq1, hq2⟩, by simpa using hqb⟩
      rw [this]; rfl
    · rfl
  · obtain ⟨g', h1, h2, h3, h4, h5, h6, h7⟩ := setStone_inv hg.inv hP hpos (c := c)
      ⟨q, by
        refine ⟨by rw [hg.size]; exact hq1, ?_, pos, Relation.ReflTransGen.refl, hq2⟩
        rw [place_ne hqp]; exact hqb⟩
      (by
        rintro ⟨n, hn, _, hn3, _⟩
        rw [hg.board] at hn3
        split at hn3
        · exact cell_ne_opp c hn3
        · exact cell_ne_empty c.opp hn3.symm)
    refine ⟨g', h1, ⟨h2, by rw [h4, hg.size], ?_, by rw [h7, hg.winner], by rw [h6, hg.moves]⟩, h5⟩
    intro p
    rw [h3]
    by_cases hp : p = pos
    · subst hp; rw [place_pos, if_pos (by simp)]
    · rw [place_ne hp, hg.board]
      simp [hp]

theorem given_loop {s : Nat} {c : Color} (h : Int) : ∀ (ps done : List Pos) (i : Int) (g : Game), Given s c done g → (done ++ ps).Nodup →
    (∀ p ∈ done ++ ps, SecondLine s p) → ∃ g', handicapLoop h c ps i g = .ok g' ∧ Given s c (done ++ ps.take (h - i).toNat) g' := by
  intro ps
  induction ps with
  | nil => intro done i g hg _ _; exact ⟨g, rfl, by simpa using hg⟩
  | cons pos ps ih =>
    intro done i g hg hn hl
    rw [handicapLoop]
    by_cases hi : i + 1 > h
    · rw [if_pos hi]
      refine ⟨g, rfl, ?_⟩
      have : (h - i).toNat = 0 := by omega
      rw [this]; simpa using hg
    · rw [if_neg hi]
      have hnew : pos ∉ done := by
        rw [List.nodup_append'] at hn
        exact fun hd => List.disjoint_left.1 hn.2.2 hd (by simp)
      obtain ⟨h1, g', h2, h3, _⟩ := given_step hg hnew (hl pos (by simp)) (fun p hp => hl p (by simp [hp]))
      rw [h1]
      simp only [h2]
      obtain ⟨g'', h4, h5⟩ := ih (done ++ [pos]) (i + 1) g' h3 (by simpa using hn) (by simpa using hl)
      refine ⟨g'', h4, ?_⟩
      have : (h - i).toNat = (h - (i + 1)).toNat + 1 := by omega
      rw [this, List.take_succ_cons]
      simpa using h5

end Verif.Capture

namespace Verif.Props
open Verif.DataSet (Err)
open Verif.Handicap
open Verif.Handicap.Spec

/-- C105: whatever the outcomes of the games, the evaluation does not fail; it plays at least one and at most maxGames games, starting without
a handicap and choosing the next handicap from the results so far (`Run`); it stops as soon as the results have settled or maxGames games
are played; the value is the highest handicap played plus the balance there, or the mean of the two last handicaps' values if the results
lie between these. -/
theorem C105_evaluation {K : Type} [Field K] [LinearOrder K] [IsStrictOrderedRing K] (cfg : Cfg) (hg : 1 ≤ cfg.maxGames) (hm : 1 ≤ cfg.minEvals)
    (outcome : Nat → Int → Bool × Nat) :
    ∃ v hist c h, f K cfg outcome = .ok (v, hist) ∧ Run K cfg outcome hist c ∧ 1 ≤ hist.length ∧ hist.length ≤ cfg.maxGames ∧
      (hist.length = cfg.maxGames ∨ Settled K cfg hist c) ∧ Highest hist h ∧
      (¬ Between K cfg hist h → v = (h : K) + balance K hist h) ∧
      (Between K cfg hist h → v = (h : K) - 1 / 2 + (balance K hist h + balance K hist (h - 1)) / 2) := by
  obtain ⟨r, c, hist, top, e, hb, hr, hend, hle⟩ := f_run (K := K) cfg outcome
  have hne : hist ≠ [] := by
    rintro rfl
    rcases hend with h | h
    · simp at h; omega
    · exact not_settled_nil hm c h
  have htop : 0 < top := by
    obtain ⟨g, hist', rfl⟩ := List.exists_cons_of_ne_nil hne
    have := hb.below g (by simp)
    omega
  obtain ⟨v, ev, h1, h2⟩ := final_book (K := K) (cfg := cfg) hb htop
  refine ⟨v, hist, c, top - 1, ?_, hr, ?_, hle, hend, (highest_iff hb _).2 ⟨rfl, htop⟩, h2, h1⟩
  · unfold f
    simp only [e, ev]
  · exact List.length_pos_iff.2 hne

/-- C105: the handicap stays between 0 and the maximal one, and a game without a handicap is never played after one with a handicap. -/
theorem C105_levels {K : Type} [Field K] [LinearOrder K] (cfg : Cfg) (outcome : Nat → Int → Bool × Nat) (hist : Games) (c : Int)
    (hr : Run K cfg outcome hist c) :
    (0 ≤ c ∧ c ≤ max 0 cfg.maxHandicaps) ∧ (∀ g ∈ hist, 0 ≤ g.1 ∧ g.1 ≤ max 0 cfg.maxHandicaps) ∧ ((∃ g ∈ hist, 0 < g.1) → 0 < c) := by
  obtain ⟨h1, h2, h3⟩ := run_range hr
  exact ⟨h1, h2, fun ⟨g, hg, hp⟩ => h3 g hg hp⟩

/-- C105: the value lies between -2 and the highest handicap played plus 1.1. -/
theorem C105_range {K : Type} [Field K] [LinearOrder K] [IsStrictOrderedRing K] (cfg : Cfg) (hg : 1 ≤ cfg.maxGames) (hm : 1 ≤ cfg.minEvals)
    (outcome : Nat → Int → Bool × Nat) :
    ∃ v hist h, f K cfg outcome = .ok (v, hist) ∧ Highest hist h ∧ -2 ≤ v ∧ v ≤ (h : K) + 11 / 10 := by
  obtain ⟨v, hist, c, h, e, hr, _, _, _, hh, h1, h2⟩ := C105_evaluation (K := K) cfg hg hm outcome
  refine ⟨v, hist, h, e, hh, ?_⟩
  obtain ⟨b1, b2⟩ := balance_bounds (K := K) hist h
  obtain ⟨d1, d2⟩ := balance_bounds (K := K) hist (h - 1)
  obtain ⟨g, hgm, rfl⟩ := hh.1
  have h0 : (0 : K) ≤ (g.1 : K) := by exact_mod_cast ((run_range hr).2.1 g hgm).1
  by_cases hbt : Between K cfg hist g.1
  · have hpos : (1 : K) ≤ (g.1 : K) := by exact_mod_cast hbt.1
    rw [h2 hbt]
    constructor <;> linarith
  · rw [h1 hbt]
    constructor <;> linarith

/-- C105, negation of "the scale goes from -1 to (the highest handicap + 1)" (comment, handicaptask.py:114): a player who loses all games gets less
than -1, whatever the settings. -/
theorem C105_negation_scale {K : Type} [Field K] [LinearOrder K] [IsStrictOrderedRing K] (cfg : Cfg) (hg : 1 ≤ cfg.maxGames)
    (hm : 1 ≤ cfg.minEvals) (m : Nat) (hmv : 1 ≤ m) : ∃ v hist, f K cfg (loser m) = .ok (v, hist) ∧ v < -1 := by
  obtain ⟨v, hist, c, h, e, hr, hl, _, _, hh, h1, h2⟩ := C105_evaluation (K := K) cfg hg hm (loser m)
  obtain ⟨eh, _⟩ := loser_run m hmv hr
  obtain ⟨⟨g, hgm, rfl⟩, _⟩ := hh
  have hg0 : g.1 = 0 := by
    rw [eh] at hgm
    rw [List.eq_of_mem_replicate hgm]
  refine ⟨v, hist, e, ?_⟩
  rw [h1 (fun hb => by have := hb.1; omega), hg0, balance_tally, eh, tally_replicate]
  simp only [if_true, Bool.false_eq_true, if_false, Int.cast_zero, zero_add]
  exact bal_lost_lt hist.length m (by omega) (by omega)

/-- C105, negation of "If <20% decrease it" and of "if the system fluctuates between H and H+1 ... assert H+0.5" (docstring,
handicaptask.py:18-23): the handicap is not decreased from 1 to 0. A player who wins all games without and loses all games with a handicap
plays all of the maxGames games, all but the first minEvals of them with one handicap stone, and gets less than 0. -/
theorem C105_negation_decrease {K : Type} [Field K] [LinearOrder K] [IsStrictOrderedRing K] (cfg : Cfg) (hm : 1 ≤ cfg.minEvals)
    (hg : cfg.minEvals < cfg.maxGames) (hmax : 1 ≤ cfg.maxHandicaps) (m : Nat) (hmv : 1 ≤ m) :
    ∃ v hist, f K cfg (waverer m) = .ok (v, hist) ∧
      hist = List.replicate cfg.minEvals (0, true, m) ++ List.replicate (cfg.maxGames - cfg.minEvals) (1, false, m) ∧ v < 0 := by
  obtain ⟨v, hist, c, h, e, hr, hl, _, hend, hh, h1, h2⟩ := C105_evaluation (K := K) cfg (by omega) hm (waverer m)
  obtain ⟨a, b, rfl, hab⟩ := waverer_run m hmv hm hmax hr
  have hlen : (waver m a b).length = cfg.maxGames := by
    rcases hend with h | h
    · exact h
    · exact absurd h (waverer_not_settled m hmv hm hab)
  have hl2 : a + b = cfg.maxGames := by simpa [waver] using hlen
  have ha : a = cfg.minEvals := by
    rcases hab with ⟨h1, h2, _⟩ | ⟨h, _⟩
    · omega
    · exact h
  have hb : b = cfg.maxGames - cfg.minEvals := by omega
  have hh1 : h = 1 := by
    obtain ⟨⟨g, hgm, rfl⟩, hmx⟩ := hh
    have := hmx (1, false, m) (by simp [waver]; omega)
    simp only at this
    rcases List.mem_append.1 hgm with hgm | hgm
    · have := List.eq_of_mem_replicate hgm; subst this; simp at *
    · rw [List.eq_of_mem_replicate hgm]
  subst hh1
  refine ⟨v, _, e, by rw [← hb, ← ha]; rfl, ?_⟩
  have hnb : ¬ Between K cfg (waver m a b) 1 := by
    rintro ⟨_, _, h2, _⟩
    have hp : played (waver m a b) (1 - 1) = (tally (waver m a b) (1 - 1)).t := rfl
    rw [hp, tally_waver] at h2
    simp at h2
    omega
  rw [h1 hnb, balance_tally, tally_waver]
  simp only [one_ne_zero, if_true, if_false, Int.cast_one]
  have := bal_lost_lt (K := K) b m (by omega) hmv
  linarith

/-- the settings of the class -/
def handicapSettings (maxHandicaps : Int) : Cfg := ⟨200, 5, maxHandicaps⟩

example : (handicapSettings 8).minEvals < (handicapSettings 8).maxGames := by decide

/-- C105, negation of "the score = 2 * #handicaps + proportion of wins at that level" (docstring, handicaptask.py:24): on a board of size 5 a player
who wins all games, each after 10 moves, reaches the maximal handicap 8 and gets 9.0001, not 17. -/
theorem C105_negation_score :
    (f ℚ (handicapSettings 8) (fun _ _ => (true, 10))).toOption.map (fun x => (x.1, x.2.length)) = some (9 + 1 / 10000, 50) := by
  decide +kernel

/-- C105, negation for degenerate settings: with maxGames = 0 or minEvals = 0 every evaluation is a KeyError. -/
theorem C105_negation_settings {K : Type} [Field K] [LinearOrder K] [IsStrictOrderedRing K] (cfg : Cfg) (h : cfg.maxGames = 0 ∨ cfg.minEvals = 0)
    (outcome : Nat → Int → Bool × Nat) : f K cfg outcome = .error .keyError := by
  have hfin : final K cfg start = .error .keyError := by
    unfold final
    rw [best_book book_start]
    rw [fluctuating_book (K := K) (cfg := cfg) book_start]
    have : ¬ ∃ h, Highest [] h ∧ Between K cfg [] h := by
      rintro ⟨h, ⟨⟨g, hg, _⟩, _⟩, _⟩
      simp at hg
    classical
    rw [decide_eq_false this]
    rfl
  have hloop : loop K cfg outcome cfg.maxGames 0 0 start [] = .ok (start, 0, []) := by
    cases hn : cfg.maxGames with
    | zero => rfl
    | succ n =>
      have hm : cfg.minEvals = 0 := by rcases h with h | h; omega; exact h
      have hs : Settled K cfg [] 0 := by
        right
        refine ⟨by omega, Or.inl ⟨?_, ?_⟩⟩
        · rintro ⟨_, h⟩; simp [balance, played, on] at h; linarith
        · rintro ⟨_, h⟩; simp [balance, played, on] at h; linarith
      classical
      rw [loop, stable_book book_start (le_refl _) (le_refl _), decide_eq_true hs]
  unfold f
  simp only [hloop, hfin]

/-- C105: on an empty board of size 4 or more, a handicap of `h` stones gives `h` stones of the given colour, but not more than there are points on the
second line, which is also the maximal handicap of the task; all of them lie on the second line, and the rest of the board stays empty. The
game is not over, no moves are counted, and the bookkeeping of groups and liberties is right (`Inv`, see C33). -/
theorem C105_stones (size : Nat) (hs : 4 ≤ size) (suicide : Bool) (h : Nat) (c : Capture.Color) :
    ∃ g, Capture.giveHandicap (Capture.newGame size suicide) h c = .ok g ∧ Capture.Inv g ∧ g.winner = none ∧ g.movesDone = 0 ∧ g.size = size ∧
      (∀ p, g.b p = c.cell → Capture.SecondLine size p) ∧ (∀ p, g.b p ≠ c.cell → g.b p = .empty) ∧
      ((Capture.iterPos size).filter (fun p => g.b p = c.cell)).length = min h ((size - 2) * 2 + (size - 4) * 2) := by
  have hmem := fun p => Capture.mem_handicapPoints (s := size) (by omega) p
  obtain ⟨g, h1, h2⟩ := Capture.given_loop (s := size) (c := c) h (Capture.handicapPoints size) [] 0 (Capture.newGame size suicide)
    ⟨Capture.inv_new size suicide, rfl, fun p => by simp [Capture.newGame], rfl, rfl⟩
    (by simpa using Capture.handicapPoints_nodup (by omega)) (by simpa using fun p hp => (hmem p).1 hp)
  have hsz : (Capture.newGame size suicide).size = size := rfl
  simp only [List.nil_append, sub_zero, Int.toNat_natCast] at h2
  have hcell : ∀ p, g.b p = c.cell ↔ p ∈ (Capture.handicapPoints size).take h := by
    intro p
    rw [h2.board]
    by_cases hp : p ∈ (Capture.handicapPoints size).take h
    · simp [hp]
    · simp only [hp, if_false, iff_false]; exact (Capture.cell_ne_empty c).symm
  refine ⟨g, ?_, h2.inv, h2.winner, h2.moves, h2.size, ?_, ?_, ?_⟩
  · unfold Capture.giveHandicap
    rw [hsz, if_pos (by omega)]
    exact h1
  · intro p hp
    exact (hmem p).1 (List.mem_of_mem_take ((hcell p).1 hp))
  · intro p hp
    rw [h2.board, if_neg (fun h' => hp ((hcell p).2 h'))]
  · have hperm : ((Capture.iterPos size).filter (fun p => g.b p = c.cell)).Perm ((Capture.handicapPoints size).take h) := by
      refine (List.perm_ext_iff_of_nodup ((iterPos_nodup size).filter _) ((Capture.handicapPoints_nodup (by omega)).take)).2 ?_
      intro p
      simp only [List.mem_filter, decide_eq_true_eq, hcell, mem_iterPos]
      refine ⟨fun h => h.2, fun h => ⟨?_, h⟩⟩
      have := (hmem p).1 (List.mem_of_mem_take h)
      exact ⟨by have := this.1; omega, by have := this.1; omega⟩
    rw [hperm.length_eq, List.length_take, Capture.handicapPoints_length (by omega)]
    omega

/-- C105: with the maximal handicap the stones are exactly the points of the second line. -/
theorem C105_full_line (size : Nat) (hs : 4 ≤ size) (suicide : Bool) (c : Capture.Color) :
    ∃ g, Capture.giveHandicap (Capture.newGame size suicide) (((size - 2) * 2 + (size - 4) * 2 : Nat)) c = .ok g ∧
      ∀ p, g.b p = c.cell ↔ Capture.SecondLine size p := by
  obtain ⟨g, h1, _, _, _, _, h2, _, h3⟩ := C105_stones size hs suicide ((size - 2) * 2 + (size - 4) * 2) c
  refine ⟨g, h1, fun p => ⟨h2 p, fun hp => ?_⟩⟩
  rw [min_self] at h3
  have hsub : ((Capture.iterPos size).filter (fun p => g.b p = c.cell)) ⊆ Capture.handicapPoints size := by
    intro q hq
    simp only [List.mem_filter, decide_eq_true_eq] at hq
    exact (Capture.mem_handicapPoints (by omega) q).2 (h2 q hq.2)
  have hsp := List.Nodup.subperm ((iterPos_nodup size).filter (fun p => g.b p = c.cell)) hsub
  have hperm := hsp.perm_of_length_le (by rw [h3, Capture.handicapPoints_length (by omega)]; omega)
  have := hperm.symm.subset ((Capture.mem_handicapPoints (s := size) (by omega) p).2 hp)
  simp only [List.mem_filter, decide_eq_true_eq] at this
  exact this.2

end Verif.Props
