import Verif.Model.ClientPlayer
import Mathlib.Data.List.Induction
import Mathlib.Tactic.Ring
/-
C193: playing the capture game with an external program.
-/
namespace Verif.ClientPlayer
open Verif.Capture
open Verif.DataSet (Err)

/-- one row of the board -/
def row (g : Game) (i : Nat) : List Char := '-' :: (List.range g.size).map fun j => digit (g.b (i, j))

theorem fold_row (g : Game) (i : Nat) : ∀ (k : Nat), k ≤ g.size → 0 < g.size → ∀ js,
    (((List.range k).map fun j => (i, j)).zipIdx (i * g.size)).foldl (addCell g) js = if k = 0 then js else js ++ '-' :: (List.range k).map fun j => digit (g.b (i, j))
  | 0, _, _, js => by simp
  | k + 1, hk, hs, js => by
    rw [List.range_succ, List.map_append, List.zipIdx_append, List.foldl_append, fold_row g i k (by omega) hs js]
    simp only [List.map_cons, List.map_nil, List.zipIdx_singleton, List.foldl_cons, List.foldl_nil, List.length_map, List.length_range]
    have hmod : (i * g.size + k) % g.size = k := by rw [Nat.mul_comm, Nat.mul_add_mod, Nat.mod_eq_of_lt (by omega)]
    unfold addCell
    simp only [hmod]
    by_cases h : k = 0
    · subst h; simp
    · simp [h]

theorem fold_rows (g : Game) : ∀ (k : Nat) (js : List Char),
    ((List.range k).flatMap fun i => (List.range g.size).map fun j => (i, j)).zipIdx.foldl (addCell g) js = if g.size = 0 then js else js ++ (List.range k).flatMap (row g)
  | 0, js => by simp
  | k + 1, js => by
    rw [List.range_succ, List.flatMap_append, List.zipIdx_append, List.foldl_append, fold_rows g k js]
    have hlen : ((List.range k).flatMap fun i => (List.range g.size).map fun j => (i, j)).length = k * g.size := by
      simp [List.length_flatMap, List.map_const']
    rw [hlen]
    by_cases h : g.size = 0
    · simp [h]
    · simp only [h, if_false, List.flatMap_singleton, zero_add]
      rw [fold_row g k g.size le_rfl (by omega), if_neg h]
      simp [row]

theorem encode_rows (g : Game) (c : Color) (hs : 0 < g.size) : encode g c = (if c = .black then '1' else '2') :: '-' :: ((List.range g.size).flatMap (row g) ++ ['\n']) := by
  unfold encode iterPos
  simp only [fold_rows, if_neg hs.ne']
  cases c <;> simp

theorem receive_spec (recv : Nat → List Char) : ∀ (fuel t : Nat) (jr a : List Char) (t' : Nat), receive recv fuel t jr = some (a, t') → 2 ≤ a.length ∧ t ≤ t' ∧
    (a = jr ∧ t' = t ∨ t < t' ∧ a = recv (t' - 1) ∧ jr.length < 2 ∧ ∀ s, t ≤ s → s < t' - 1 → (recv s).length < 2)
  | 0, _, _, _, _, h => by simp [receive] at h
  | fuel + 1, t, jr, a, t', h => by
    unfold receive at h
    split at h
    · rename_i hlt
      obtain ⟨h1, h2, h3⟩ := receive_spec recv fuel (t + 1) (recv t) a t' h
      refine ⟨h1, by omega, Or.inr ?_⟩
      rcases h3 with ⟨e1, e2⟩ | ⟨e1, e2, e3, e4⟩
      · subst e2
        exact ⟨by omega, by simpa using e1, hlt, fun s hs hs' => by omega⟩
      · refine ⟨by omega, e2, hlt, fun s hs hs' => ?_⟩
        rcases Nat.eq_or_lt_of_le hs with e | e
        · rw [← e]; exact e3
        · exact e4 s e hs'
    · rename_i hlt
      have e := Option.some.inj h
      have e1 : jr = a := congrArg Prod.fst e
      have e2 : t = t' := congrArg Prod.snd e
      subst e1; subst e2
      exact ⟨by omega, le_rfl, Or.inl ⟨rfl, rfl⟩⟩

theorem receive_short (recv : Nat → List Char) (k : Nat) : ∀ (fuel t : Nat) (jr : List Char), jr.length < 2 → (∀ s, t ≤ s → s < t + k → (recv s).length < 2) → 2 ≤ (recv (t + k)).length → k + 2 ≤ fuel →
    receive recv fuel t jr = some (recv (t + k), t + k + 1) := by
  induction k with
  | zero =>
    intro fuel t jr hj _ h2 hf
    obtain ⟨f, rfl⟩ : ∃ f, fuel = f + 2 := ⟨fuel - 2, by omega⟩
    rw [receive, if_pos hj, receive, if_neg (by simpa using h2)]
    rfl
  | succ k ih =>
    intro fuel t jr hj hs h2 hf
    obtain ⟨f, rfl⟩ : ∃ f, fuel = f + 1 := ⟨fuel - 1, by omega⟩
    rw [receive, if_pos hj]
    have := ih f (t + 1) (recv t) (hs t le_rfl (by omega)) (fun s h h' => hs s (by omega) (by omega)) (by rw [show t + 1 + k = t + (k + 1) by omega]; exact h2) (by omega)
    rw [this, show t + 1 + k = t + (k + 1) by omega]

end Verif.ClientPlayer

namespace Verif.Props
open Verif.Capture Verif.ClientPlayer
open Verif.DataSet (Err)

/-- **C193, the line sent.** It is the number of the player, 1 for black and 2 for white, and `-`, and then for each row of the board `-` and one digit for each cell: 1 for black, 2 for white, and 0. -/
theorem C193_line (g : Game) (c : Color) (hs : 0 < g.size) :
    encode g c = (if c = .black then '1' else '2') :: '-' :: (((List.range g.size).flatMap fun i => '-' :: (List.range g.size).map fun j => match g.b (i, j) with
      | .black => '1'
      | .white => '2'
      | _ => '0') ++ ['\n']) := by
  rw [encode_rows g c hs]
  rfl

/-- the number of `-` in rows -/
private theorem rowDashes (g : Game) (k : Nat) : ((List.range k).flatMap (row g)).count '-' = k := by
  induction k with
  | zero => simp
  | succ k ih =>
    rw [List.range_succ, List.flatMap_append, List.count_append, ih]
    have : ((List.range g.size).map fun j => digit (g.b (k, j))).count '-' = 0 := by
      rw [List.count_eq_zero]
      intro h
      obtain ⟨j, _, e⟩ := List.mem_map.1 h
      cases h' : g.b (k, j) <;> rw [h'] at e <;> exact absurd e (by decide)
    simp [row, this]

/-- **C193, the position is known.** From the line the program can tell who is to move, the size of the board and all stones: two games with the same line agree in these. -/
theorem C193_position (g g' : Game) (c c' : Color) (hs : 0 < g.size) (hs' : 0 < g'.size) (h : encode g c = encode g' c') :
    c = c' ∧ g.size = g'.size ∧ ∀ i j, i < g.size → j < g.size → (g.b (i, j) = .black ↔ g'.b (i, j) = .black) ∧ (g.b (i, j) = .white ↔ g'.b (i, j) = .white) := by
  rw [encode_rows g c hs, encode_rows g' c' hs'] at h
  simp only [List.cons.injEq, true_and] at h
  obtain ⟨h1, h2⟩ := h
  have hc : c = c' := by cases c <;> cases c' <;> simp at h1 <;> rfl
  have h3 := List.append_cancel_right h2
  have hsize : g.size = g'.size := by
    have := congrArg (List.count '-') h3
    rwa [rowDashes, rowDashes] at this
  refine ⟨hc, hsize, ?_⟩
  rw [← hsize] at h3
  have hrows : ∀ k, (List.range k).flatMap (row g) = (List.range k).flatMap (row g') → ∀ i < k, row g i = row g' i := by
    intro k
    induction k with
    | zero => intro _ i hi; omega
    | succ k ih =>
      intro h i hi
      rw [List.range_succ, List.flatMap_append, List.flatMap_append] at h
      have hl : ((List.range k).flatMap (row g)).length = ((List.range k).flatMap (row g')).length := by
        simp [List.length_flatMap, row, hsize]
      obtain ⟨e1, e2⟩ := List.append_inj h hl
      rcases Nat.lt_succ_iff_lt_or_eq.1 hi with h' | h'
      · exact ih e1 i h'
      · subst h'; simpa using e2
  intro i j hi hj
  have hr := hrows g.size h3 i hi
  unfold row at hr
  rw [← hsize] at hr
  have hd : digit (g.b (i, j)) = digit (g'.b (i, j)) := by
    have e := (List.cons.inj hr).2
    have := List.map_inj_left.1 e j (List.mem_range.2 hj)
    exact this
  cases h1 : g.b (i, j) <;> cases h2 : g'.b (i, j) <;> rw [h1, h2] at hd <;> simp [digit] at hd ⊢

example : encode { newGame 2 true with b := fun p => if p = (0, 1) then .black else if p = (1, 0) then .white else .empty } .white = ['2', '-', '-', '0', '1', '-', '2', '0', '\n'] := by decide +kernel

/-- **C193, actions are legal.** Whatever the program answers and however the network cuts it into pieces, an action that is returned is a legal move of the player's colour, and what was evaluated is one piece of at least two bytes. -/
theorem C193_legal (eval : List Char → Except Err Pos) (recv : Nat → List Char) (fuel t : Nat) (g : Game) (c c' : Color) (p : Pos) (t' : Nat)
    (h : getAction eval recv fuel t g c = some (.ok ((c', p), t'))) : c' = c ∧ isLegal g c p = .ok true ∧ t < t' ∧ eval (recv (t' - 1)) = .ok p ∧ 2 ≤ (recv (t' - 1)).length := by
  unfold getAction at h
  cases hr : receive recv fuel t [] with
  | none => rw [hr] at h; cases h
  | some r =>
    obtain ⟨jr, t1⟩ := r
    rw [hr] at h
    have h' := Option.some.inj h
    simp only [bind, Except.bind] at h'
    cases he : eval jr with
    | error e => rw [he] at h'; cases h'
    | ok q =>
      rw [he] at h'
      simp only at h'
      cases hl : isLegal g c q with
      | error e => rw [hl] at h'; cases h'
      | ok b =>
        rw [hl] at h'
        simp only at h'
        cases b with
        | false => cases h'
        | true =>
          have e := Except.ok.inj h'
          have e1 : c = c' := congrArg (fun x => x.1.1) e
          have e2 : q = p := congrArg (fun x => x.1.2) e
          have e3 : t1 = t' := congrArg (fun x => x.2) e
          subst e1; subst e2; subst e3
          obtain ⟨k1, k2, k3⟩ := receive_spec recv fuel t [] jr t1 hr
          rcases k3 with ⟨k, -⟩ | ⟨k3, k4, -, -⟩
          · rw [k] at k1; simp at k1
          · exact ⟨rfl, hl, k3, by rw [← k4]; exact he, by rw [← k4]; exact k1⟩

/-- **C193, the answer is played.** If the answer of the program arrives in one piece, after whatever pieces of at most one byte, the move it stands for is the action, provided it is legal; if not, an AssertionError is raised. -/
theorem C193_answer_partial (eval : List Char → Except Err Pos) (recv : Nat → List Char) (fuel t k : Nat) (g : Game) (c : Color) (p : Pos) (b : Bool) (hshort : ∀ s, t ≤ s → s < t + k → (recv s).length < 2)
    (hans : 2 ≤ (recv (t + k)).length) (hf : k + 2 ≤ fuel) (he : eval (recv (t + k)) = .ok p) (hl : isLegal g c p = .ok b) :
    getAction eval recv fuel t g c = some (if b then .ok ((c, p), t + k + 1) else .error .assertion) := by
  unfold getAction
  rw [receive_short recv k fuel t [] (by simp) hshort hans hf]
  simp only [he, hl, bind, Except.bind]
  cases b <;> rfl

/-- **C193, the handshake.** The player is made if the first piece of at least two bytes is `OK`, and not otherwise. -/
theorem C193_handshake (recv : Nat → List Char) (fuel k : Nat) (hshort : ∀ s < k, (recv s).length < 2) (hans : 2 ≤ (recv k).length) (hf : k + 2 ≤ fuel) :
    handshake recv fuel = some (if recv k = ['O', 'K'] then .ok (k + 1) else .error .assertion) := by
  have := receive_short recv k fuel 0 [] (by simp) (fun s _ h => hshort s (by omega)) (by simpa using hans) hf
  unfold handshake
  rw [this]
  simp

/-- Python's `eval` for an example: pairs of one-digit numbers -/
def clientEval : List Char → Except Err Pos
  | ['(', a, ',', ' ', b, ')'] => .ok (a.toNat - 48, b.toNat - 48)
  | _ => .error .valueError

example : getAction clientEval (fun t => if t = 0 then ['('] else ['(', '1', ',', ' ', '2', ')']) 5 0 (newGame 3 true) .white = some (.ok ((.white, (1, 2)), 2)) := by rfl
example : handshake (fun _ => ['O', 'K']) 3 = some (.ok 1) := by rfl

/-- **C193 fails for answers that arrive in pieces:** only one piece is evaluated. If an answer is cut after the first byte, the first byte is dropped; if it is cut later, everything after the cut is left in the socket, and is taken for the answer to the
next question. -/
theorem C193_negation_pieces (first rest : List Char) (fuel t : Nat) (hf : 3 ≤ fuel) (recv : Nat → List Char) (h0 : recv t = first) (h1 : recv (t + 1) = rest) :
    (first.length < 2 → 2 ≤ rest.length → receive recv fuel t [] = some (rest, t + 2)) ∧
    (2 ≤ first.length → receive recv fuel t [] = some (first, t + 1)) ∧ (2 ≤ first.length → 2 ≤ rest.length → receive recv fuel (t + 1) [] = some (rest, t + 2)) := by
  refine ⟨fun a b => ?_, fun a => ?_, fun _ b => ?_⟩
  · have := receive_short recv 1 fuel t [] (by simp) (fun s h h' => by rw [show s = t by omega, h0]; exact a) (by rw [h1]; exact b) (by omega)
    rw [this, h1]
  · have := receive_short recv 0 fuel t [] (by simp) (fun s h h' => by omega) (by rw [Nat.add_zero, h0]; exact a) (by omega)
    rw [this, Nat.add_zero, h0]
  · have := receive_short recv 0 fuel (t + 1) [] (by simp) (fun s h h' => by omega) (by rw [Nat.add_zero, h1]; exact b) (by omega)
    rw [this, Nat.add_zero, h1]

/-- **C193 fails for single bytes:** if `OK` arrives in two pieces, it is not recognised, and the player waits for more. -/
theorem C193_negation_bytes (recv : Nat → List Char) (h0 : recv 0 = ['O']) (h1 : recv 1 = ['K']) (h : ∀ t, 2 ≤ t → recv t = []) (fuel : Nat) : handshake recv fuel = none := by
  have key : ∀ (fuel t : Nat) (jr : List Char), jr.length < 2 → receive recv fuel t jr = none := by
    intro fuel
    induction fuel with
    | zero => intro t jr _; rfl
    | succ f ih =>
      intro t jr hj
      rw [receive, if_pos hj]
      apply ih
      rcases Nat.lt_or_ge t 2 with ht | ht
      · obtain rfl | rfl : t = 0 ∨ t = 1 := by omega
        · rw [h0]; simp
        · rw [h1]; simp
      · rw [h t ht]; simp
  unfold handshake
  rw [key fuel 0 [] (by simp)]

/-- **C193 fails for a closed connection:** the player waits for ever. -/
theorem C193_negation_closed (eval : List Char → Except Err Pos) (recv : Nat → List Char) (t : Nat) (g : Game) (c : Color) (h : ∀ s, t ≤ s → recv s = []) (fuel : Nat) : getAction eval recv fuel t g c = none := by
  have key : ∀ (fuel t' : Nat) (jr : List Char), t ≤ t' → jr.length < 2 → receive recv fuel t' jr = none := by
    intro fuel
    induction fuel with
    | zero => intro t' jr _ _; rfl
    | succ f ih =>
      intro t' jr ht hj
      rw [receive, if_pos hj]
      exact ih _ _ (by omega) (by rw [h t' ht]; simp)
  unfold getAction
  rw [key fuel t [] le_rfl (by simp)]

end Verif.Props
