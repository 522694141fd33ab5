import Verif.Spec.Lstm
import Mathlib.Algebra.BigOperators.Group.Finset.Basic
import Mathlib.Algebra.BigOperators.Intervals
import Mathlib.Tactic.Ring
/-
Lemmas about the LSTM layer: what the buffers hold after the forward pass and after the backward pass.
-/
namespace Verif.Lstm
open Verif.Net Verif.Lstm.Spec Finset

variable {K : Type} [CommRing K]

/-- After `n` steps on the inputs `x` the first `n` rows hold the values of the recurrence and all errors are zero. -/
structure FInv (T : Trans K) (peep : Bool) (dim : Nat) (w : Vec K) (x : Nat → Vec K) (d0 : Vec K) (n : Nat) (s : LState K) : Prop where
  off : s.offset = n
  rows : 0 < s.rows
  room : n ≠ 0 → n < s.rows
  mo : n ≤ s.maxoffset
  derivs : s.derivs = d0
  inp : ∀ t < n, s.inputbuffer t = x t
  ingatex : ∀ t < n, ∀ j, s.ingatex t j = x t j + (cellOf peep dim w x j).wi * before T (cellOf peep dim w x j) t
  forgetgatex : ∀ t < n, ∀ j, s.forgetgatex t j = x t (dim + j) + (cellOf peep dim w x j).wf * before T (cellOf peep dim w x j) t
  outgatex : ∀ t < n, ∀ j, s.outgatex t j = x t (3 * dim + j) + (cellOf peep dim w x j).wo * before T (cellOf peep dim w x j) (t + 1)
  ingate : ∀ t < n, ∀ j, s.ingate t j = T.f (s.ingatex t j)
  forgetgate : ∀ t < n, ∀ j, s.forgetgate t j = T.f (s.forgetgatex t j)
  outgate : ∀ t < n, ∀ j, s.outgate t j = T.f (s.outgatex t j)
  state : ∀ t < n, ∀ j, s.state t j = before T (cellOf peep dim w x j) (t + 1)
  ie : ∀ t j, s.ingateError t j = 0
  fe : ∀ t j, s.forgetgateError t j = 0
  se : ∀ t j, s.stateError t j = 0

theorem FInv.grow {T : Trans K} {peep : Bool} {dim : Nat} {w : Vec K} {x : Nat → Vec K} {d0 : Vec K} {n : Nat} {s : LState K}
    (h : FInv T peep dim w x d0 n s) : FInv T peep dim w x d0 n (grow s) := by
  have hr : ∀ t < n, t < s.rows := fun t ht => by have := h.room (by omega); omega
  refine ⟨h.off, ?_, fun hn => ?_, h.mo, h.derivs, ?_, ?_, ?_, ?_, ?_, ?_, ?_, ?_, ?_, ?_, ?_⟩
  · have := h.rows; simp only [Verif.Lstm.grow]; omega
  · have := h.room hn; simp only [Verif.Lstm.grow]; omega
  · intro t ht; simp only [Verif.Lstm.grow, hr t ht, if_true]; exact h.inp t ht
  · intro t ht j; simp only [Verif.Lstm.grow, hr t ht, if_true]; exact h.ingatex t ht j
  · intro t ht j; simp only [Verif.Lstm.grow, hr t ht, if_true]; exact h.forgetgatex t ht j
  · intro t ht j; simp only [Verif.Lstm.grow, hr t ht, if_true]; exact h.outgatex t ht j
  · intro t ht j; simp only [Verif.Lstm.grow, hr t ht, if_true]; exact h.ingate t ht j
  · intro t ht j; simp only [Verif.Lstm.grow, hr t ht, if_true]; exact h.forgetgate t ht j
  · intro t ht j; simp only [Verif.Lstm.grow, hr t ht, if_true]; exact h.outgate t ht j
  · intro t ht j; simp only [Verif.Lstm.grow, hr t ht, if_true]; exact h.state t ht j
  · intro t j; simp only [Verif.Lstm.grow]; split_ifs; exacts [h.ie t j, rfl]
  · intro t j; simp only [Verif.Lstm.grow]; split_ifs; exacts [h.fe t j, rfl]
  · intro t j; simp only [Verif.Lstm.grow]; split_ifs; exacts [h.se t j, rfl]

theorem FInv.step {T : Trans K} {peep : Bool} {dim : Nat} {w : Vec K} {x : Nat → Vec K} {d0 : Vec K} {n : Nat} {s : LState K}
    (h : FInv T peep dim w x d0 n s) : ∃ s' y, stepForward T peep dim w s (x n) = some (s', y) ∧ FInv T peep dim w x d0 (n + 1) s' ∧
      ∀ j, y j = output T (cellOf peep dim w x j) n := by
  obtain ⟨s0, hs0, h0, hroom⟩ : ∃ s0, s0 = (if s.offset + 1 < s.rows then s else Verif.Lstm.grow s) ∧ FInv T peep dim w x d0 n s0 ∧ n + 1 < s0.rows := by
    refine ⟨_, rfl, ?_, ?_⟩
    · split_ifs; exacts [h, h.grow]
    · split_ifs with hc
      · rw [h.off] at hc; exact hc
      · have h1 := h.rows; have h2 := h.room; have h3 := h.off
        simp only [Verif.Lstm.grow]
        by_cases hn : n = 0
        · omega
        · have := h2 hn; omega
  unfold stepForward
  rw [← hs0]
  clear hs0 h
  have hoff := h0.off
  have hprev : ∀ j, 0 < n → s0.state (n - 1) j = before T (cellOf peep dim w x j) n := by
    intro j hn
    have := h0.state (n - 1) (by omega) j
    rwa [Nat.sub_add_cancel hn] at this
  have hb0 : ∀ j, n = 0 → before T (cellOf peep dim w x j) n = 0 := by intro j hn; subst hn; rfl
  have hstate : ∀ j, (if 0 < n then fun j => T.f ((if (peep && decide (0 < n)) = true then fun j => x n j + w j * s0.state (n - 1) j else fun j => x n j) j) * T.g (x n (2 * dim + j)) +
        T.f ((if (peep && decide (0 < n)) = true then fun j => x n (dim + j) + w (dim + j) * s0.state (n - 1) j else fun j => x n (dim + j)) j) * s0.state (n - 1) j
      else fun j => T.f ((if (peep && decide (0 < n)) = true then fun j => x n j + w j * s0.state (n - 1) j else fun j => x n j) j) * T.g (x n (2 * dim + j))) j =
      before T (cellOf peep dim w x j) (n + 1) := by
    intro j
    rw [before]
    rcases Nat.eq_zero_or_pos n with hn | hn
    · subst hn; cases peep <;> simp [cellOf, before]
    · have := hprev j hn
      cases peep <;> simp [hn, this, cellOf]
  have hix : ∀ j, (if (peep && decide (0 < n)) = true then fun j => x n j + w j * s0.state (n - 1) j else fun j => x n j) j =
      x n j + (cellOf peep dim w x j).wi * before T (cellOf peep dim w x j) n := by
    intro j
    rcases Nat.eq_zero_or_pos n with hn | hn
    · subst hn; cases peep <;> simp [cellOf, before]
    · have := hprev j hn
      cases peep <;> simp [hn, this, cellOf]
  have hfx : ∀ j, (if (peep && decide (0 < n)) = true then fun j => x n (dim + j) + w (dim + j) * s0.state (n - 1) j else fun j => x n (dim + j)) j =
      x n (dim + j) + (cellOf peep dim w x j).wf * before T (cellOf peep dim w x j) n := by
    intro j
    rcases Nat.eq_zero_or_pos n with hn | hn
    · subst hn; cases peep <;> simp [cellOf, before]
    · have := hprev j hn
      cases peep <;> simp [hn, this, cellOf]
  unfold forward
  dsimp only
  rw [hoff, if_pos (by omega)]
  dsimp only
  refine ⟨_, _, rfl, ⟨?_, ?_, ?_, ?_, ?_, ?_, ?_, ?_, ?_, ?_, ?_, ?_, ?_, ?_, ?_, ?_⟩, ?_⟩ <;> try dsimp only
  · exact h0.rows
  · intro _; exact hroom
  · exact le_max_left _ _
  · exact h0.derivs
  · intro t ht
    unfold setRow
    split_ifs with h
    · rw [h]
    · exact h0.inp t (by omega)
  · intro t ht j
    unfold setRow
    by_cases h : t = n
    · rw [if_pos h, h]; exact hix j
    · rw [if_neg h]; exact h0.ingatex t (by omega) j
  · intro t ht j
    unfold setRow
    by_cases h : t = n
    · rw [if_pos h, h]; exact hfx j
    · rw [if_neg h]; exact h0.forgetgatex t (by omega) j
  · intro t ht j
    unfold setRow
    by_cases h : t = n
    · rw [if_pos h, h, ← hstate j]
      cases peep <;> simp [cellOf]
    · rw [if_neg h]
      exact h0.outgatex t (by omega) j
  · intro t ht j
    unfold setRow
    by_cases h : t = n
    · rw [if_pos h, if_pos h]
    · rw [if_neg h, if_neg h]; exact h0.ingate t (by omega) j
  · intro t ht j
    unfold setRow
    by_cases h : t = n
    · rw [if_pos h, if_pos h]
    · rw [if_neg h, if_neg h]; exact h0.forgetgate t (by omega) j
  · intro t ht j
    unfold setRow
    by_cases h : t = n
    · rw [if_pos h, if_pos h]
    · rw [if_neg h, if_neg h]; exact h0.outgate t (by omega) j
  · intro t ht j
    unfold setRow
    by_cases h : t = n
    · rw [if_pos h, h]; exact hstate j
    · rw [if_neg h]; exact h0.state t (by omega) j
  · exact h0.ie
  · exact h0.fe
  · exact h0.se
  · intro j
    rw [output, ← hstate j]
    cases peep <;> simp [cellOf]

theorem FInv.run {T : Trans K} {peep : Bool} {dim : Nat} {w : Vec K} {x : Nat → Vec K} {d0 : Vec K} :
    ∀ (m n : Nat) {s : LState K}, FInv T peep dim w x d0 n s →
      ∃ s' ys, forwardAll T peep dim w s ((List.range' n m).map x) = some (s', ys) ∧ FInv T peep dim w x d0 (n + m) s' ∧ ys.length = m ∧
        ∀ t < m, ∀ j, ys.getD t (fun _ => 0) j = output T (cellOf peep dim w x j) (n + t)
  | 0, n, s, h => ⟨s, [], by simp [forwardAll], h, rfl, by simp⟩
  | m + 1, n, s, h => by
    obtain ⟨s1, y, h1, h2, h3⟩ := h.step
    obtain ⟨s2, ys, g1, g2, g3, g4⟩ := FInv.run m (n + 1) h2
    refine ⟨s2, y :: ys, ?_, by rwa [show n + (m + 1) = n + 1 + m by omega], by simp [g3], ?_⟩
    · rw [List.range'_succ, List.map_cons, forwardAll, h1]
      dsimp only
      rw [g1]
    · intro t ht j
      cases t with
      | zero => simpa using h3 j
      | succ t =>
        have := g4 t (by omega) j
        rw [List.getD_cons_succ, this, show n + 1 + t = n + (t + 1) by omega]

theorem FInv.init (T : Trans K) (peep : Bool) (dim : Nat) (w : Vec K) (x : Nat → Vec K) (s : LState K) (hs : 0 < s.rows) :
    FInv T peep dim w x s.derivs 0 (reset s) :=
  ⟨rfl, hs, fun h => absurd rfl h, Nat.zero_le _, rfl, by simp, by simp, by simp, by simp, by simp, by simp, by simp, by simp,
    fun _ _ => rfl, fun _ _ => rfl, fun _ _ => rfl⟩

/-- The quantities of the backward pass of one cell at one step, as determined by those of the next step. -/
structure Errs (K : Type) where
  oe : K
  se : K
  fe : K
  ie : K

/-- What the next step sends back to the state. -/
def carryOf (T : Trans K) (c : Cell K) (t : Nat) (n : Errs K) : K :=
  n.se * T.f (c.f t + c.wf * before T c t) + n.ie * c.wi + n.fe * c.wf

/-- One step of the backward pass of a cell at time `t` with output error `e` and `carry` from the next step. -/
def errsAt (T : Trans K) (c : Cell K) (e : K) (carry : K) (t : Nat) : Errs K :=
  let s := before T c (t + 1)
  let ox := c.o t + c.wo * s
  let oe := T.fprime ox * e * T.h s
  let se := e * T.f ox * T.hprime s + carry + oe * c.wo
  { oe := oe, se := se, fe := T.fprime (c.f t + c.wf * before T c t) * se * before T c t
    ie := T.fprime (c.i t + c.wi * before T c t) * se * T.g (c.c t) }

/-- What reaches the state after step `t` from the later steps; `n` is the number of steps. -/
def carry (T : Trans K) (c : Cell K) (e : Nat → K) (n : Nat) (t : Nat) : K :=
  if h : t + 1 < n then carryOf T c (t + 1) (errsAt T c (e (t + 1)) (carry T c e n (t + 1)) (t + 1)) else 0
termination_by n - t

/-- The errors at time `t`; zero after the last step. -/
def errs (T : Trans K) (c : Cell K) (e : Nat → K) (n : Nat) (t : Nat) : Errs K :=
  if t < n then errsAt T c (e t) (carry T c e n t) t else ⟨0, 0, 0, 0⟩

theorem carry_eq (T : Trans K) (c : Cell K) (e : Nat → K) (n t : Nat) :
    carry T c e n t = carryOf T c (t + 1) (errs T c e n (t + 1)) := by
  rw [carry, errs]
  split_ifs with h
  · rfl
  · simp [carryOf]

theorem carry_last (T : Trans K) (c : Cell K) (e : Nat → K) (n t : Nat) (h : n ≤ t + 1) : carry T c e n t = 0 := by
  rw [carry, dif_neg (by omega)]

/-- The input error of step `t`. -/
def inerr (T : Trans K) (peep : Bool) (dim : Nat) (w : Vec K) (x e : Nat → Vec K) (n t : Nat) : Vec K := fun i =>
  let E (j : Nat) := errs T (cellOf peep dim w x j) (fun t => e t j) n t
  if i < dim then (E i).ie else if i < 2 * dim then (E (i - dim)).fe
  else if i < 3 * dim then
    T.f ((cellOf peep dim w x (i - 2 * dim)).i t + (cellOf peep dim w x (i - 2 * dim)).wi * before T (cellOf peep dim w x (i - 2 * dim)) t) *
      T.gprime (x t (2 * dim + (i - 2 * dim))) * (E (i - 2 * dim)).se
  else (E (i - 3 * dim)).oe

/-- What step `t` adds to the derivatives. -/
def dpar (T : Trans K) (peep : Bool) (dim : Nat) (w : Vec K) (x e : Nat → Vec K) (n t : Nat) : Vec K := fun k =>
  let E (j : Nat) := errs T (cellOf peep dim w x j) (fun t => e t j) n t
  let c (j : Nat) := cellOf peep dim w x j
  if peep then
    if 2 * dim ≤ k then (E (k - 2 * dim)).oe * before T (c (k - 2 * dim)) (t + 1)
    else if dim ≤ k then (E (k - dim)).fe * before T (c (k - dim)) t
    else (E k).ie * before T (c k) t
  else 0

/-- The state of the backward pass of `n` steps when steps `k ..< n` are done. -/
structure BInv (T : Trans K) (peep : Bool) (dim : Nat) (w : Vec K) (x e : Nat → Vec K) (d0 : Vec K) (n k : Nat) (s : LState K) : Prop where
  off : s.offset = k
  le : k ≤ n
  room : n < s.rows
  mo : n ≤ s.maxoffset
  derivs : s.derivs = fun i => d0 i + ∑ t ∈ Ico k n, dpar T peep dim w x e n t i
  inp : ∀ t < n, s.inputbuffer t = x t
  ingatex : ∀ t < n, ∀ j, s.ingatex t j = x t j + (cellOf peep dim w x j).wi * before T (cellOf peep dim w x j) t
  forgetgatex : ∀ t < n, ∀ j, s.forgetgatex t j = x t (dim + j) + (cellOf peep dim w x j).wf * before T (cellOf peep dim w x j) t
  outgatex : ∀ t < n, ∀ j, s.outgatex t j = x t (3 * dim + j) + (cellOf peep dim w x j).wo * before T (cellOf peep dim w x j) (t + 1)
  ingate : ∀ t < n, ∀ j, s.ingate t j = T.f (s.ingatex t j)
  forgetgate : ∀ t < n, ∀ j, s.forgetgate t j = T.f (s.forgetgatex t j)
  outgate : ∀ t < n, ∀ j, s.outgate t j = T.f (s.outgatex t j)
  state : ∀ t < n, ∀ j, s.state t j = before T (cellOf peep dim w x j) (t + 1)
  ie : ∀ t j, k ≤ t → s.ingateError t j = (errs T (cellOf peep dim w x j) (fun t => e t j) n t).ie
  fe : ∀ t j, k ≤ t → s.forgetgateError t j = (errs T (cellOf peep dim w x j) (fun t => e t j) n t).fe
  fe0 : ∀ t j, t < k → s.forgetgateError t j = 0
  se : ∀ t j, k ≤ t → s.stateError t j = (errs T (cellOf peep dim w x j) (fun t => e t j) n t).se

theorem FInv.toB {T : Trans K} {peep : Bool} {dim : Nat} {w : Vec K} {x : Nat → Vec K} {d0 : Vec K} {n : Nat} {s : LState K}
    (h : FInv T peep dim w x d0 n s) (hn : n ≠ 0) (e : Nat → Vec K) : BInv T peep dim w x e d0 n n s := by
  refine ⟨h.off, le_refl _, h.room hn, h.mo, ?_, h.inp, h.ingatex, h.forgetgatex, h.outgatex, h.ingate, h.forgetgate, h.outgate, h.state, ?_, ?_, ?_, ?_⟩
  · simp [h.derivs]
  · intro t j ht; rw [h.ie, errs, if_neg (by omega)]
  · intro t j ht; rw [h.fe, errs, if_neg (by omega)]
  · intro t j _; exact h.fe t j
  · intro t j ht; rw [h.se, errs, if_neg (by omega)]

theorem BInv.step {T : Trans K} {peep : Bool} {dim : Nat} {w : Vec K} {x e : Nat → Vec K} {d0 : Vec K} {n k : Nat} {s : LState K}
    (h : BInv T peep dim w x e d0 n (k + 1) s) :
    ∃ s' g, stepBackward T peep dim w s (e k) = some (s', g) ∧ BInv T peep dim w x e d0 n k s' ∧ g = inerr T peep dim w x e n k := by
  have hoff := h.off
  have hk : k < n := h.le
  have hroom := h.room
  have hmo := h.mo
  unfold stepBackward
  rw [if_pos (by omega)]
  unfold backward
  dsimp only
  rw [hoff, Nat.add_sub_cancel, if_pos ⟨by omega, fun _ => by omega⟩]
  have hlast : decide (s.maxoffset = k) = false := decide_eq_false (by omega)
  simp only [hlast, Bool.false_eq_true, if_false]
  have hE : ∀ j, errs T (cellOf peep dim w x j) (fun t => e t j) n k =
      errsAt T (cellOf peep dim w x j) (e k j) (carry T (cellOf peep dim w x j) (fun t => e t j) n k) k := by
    intro j; rw [errs, if_pos hk]
  -- the error of the output gate
  have hoe : ∀ j, T.fprime (s.outgatex k j) * e k j * T.h (s.state k j) = (errs T (cellOf peep dim w x j) (fun t => e t j) n k).oe := by
    intro j
    rw [hE, h.outgatex k hk, h.state k hk]; rfl
  have hnext : ∀ j, s.stateError (k + 1) j * s.forgetgate (k + 1) j +
      s.ingateError (k + 1) j * (cellOf peep dim w x j).wi + s.forgetgateError (k + 1) j * (cellOf peep dim w x j).wf =
      carry T (cellOf peep dim w x j) (fun t => e t j) n k := by
    intro j
    rw [h.ie _ _ (le_refl _), h.fe _ _ (le_refl _), h.se _ _ (le_refl _), carry_eq, carryOf]
    by_cases hk1 : k + 1 < n
    · rw [h.forgetgate _ hk1, h.forgetgatex _ hk1]; rfl
    · simp [errs, hk1]
  have hse : (if peep = true then fun j => (if peep = true then fun j => e k j * s.outgate k j * T.hprime (s.state k j) + s.stateError (k + 1) j * s.forgetgate (k + 1) j + s.ingateError (k + 1) j * w j + s.forgetgateError (k + 1) j * w (dim + j) else fun j => e k j * s.outgate k j * T.hprime (s.state k j) + s.stateError (k + 1) j * s.forgetgate (k + 1) j) j + T.fprime (s.outgatex k j) * e k j * T.h (s.state k j) * w (2 * dim + j) else
      (if peep = true then fun j => e k j * s.outgate k j * T.hprime (s.state k j) + s.stateError (k + 1) j * s.forgetgate (k + 1) j + s.ingateError (k + 1) j * w j + s.forgetgateError (k + 1) j * w (dim + j) else fun j => e k j * s.outgate k j * T.hprime (s.state k j) + s.stateError (k + 1) j * s.forgetgate (k + 1) j)) =
      fun j => (errs T (cellOf peep dim w x j) (fun t => e t j) n k).se := by
    funext j
    have hse' : (errs T (cellOf peep dim w x j) (fun t => e t j) n k).se = e k j * s.outgate k j * T.hprime (s.state k j) +
        carry T (cellOf peep dim w x j) (fun t => e t j) n k + (errs T (cellOf peep dim w x j) (fun t => e t j) n k).oe * (cellOf peep dim w x j).wo := by
      rw [h.outgate k hk, h.outgatex k hk, h.state k hk, hE]; rfl
    rw [hse', ← hnext j, ← hoe j]
    cases peep <;> simp [cellOf, add_assoc]
  rw [hse]
  have hfe : (if 0 < k then fun j => T.fprime (s.forgetgatex k j) * (errs T (cellOf peep dim w x j) (fun t => e t j) n k).se * s.state (k - 1) j
      else s.forgetgateError k) = fun j => (errs T (cellOf peep dim w x j) (fun t => e t j) n k).fe := by
    funext j
    have hfe' : (errs T (cellOf peep dim w x j) (fun t => e t j) n k).fe = T.fprime (s.forgetgatex k j) *
        (errs T (cellOf peep dim w x j) (fun t => e t j) n k).se * before T (cellOf peep dim w x j) k := by
      rw [h.forgetgatex k hk, hE]; rfl
    rw [hfe']
    split_ifs with h0
    · have := h.state (k - 1) (by omega) j
      rw [Nat.sub_add_cancel h0] at this
      dsimp only
      rw [this]
    · have h00 : k = 0 := by omega
      rw [h.fe0 k j (by omega), h00, before, mul_zero]
  rw [hfe]
  have hie : (fun j => T.fprime (s.ingatex k j) * (errs T (cellOf peep dim w x j) (fun t => e t j) n k).se * T.g (s.inputbuffer k (2 * dim + j))) =
      fun j => (errs T (cellOf peep dim w x j) (fun t => e t j) n k).ie := by
    funext j
    rw [h.ingatex k hk, h.inp k hk, hE]; rfl
  have hie' : ∀ j, T.fprime (s.ingatex k j) * (errs T (cellOf peep dim w x j) (fun t => e t j) n k).se * T.g (s.inputbuffer k (2 * dim + j)) =
      (errs T (cellOf peep dim w x j) (fun t => e t j) n k).ie := fun j => congrFun hie j
  simp only [hie']
  have hoe' : (fun j => T.fprime (s.outgatex k j) * e k j * T.h (s.state k j)) =
      fun j => (errs T (cellOf peep dim w x j) (fun t => e t j) n k).oe := funext hoe
  simp only [hoe', hoe]
  have hst : 0 < k → ∀ j, s.state (k - 1) j = before T (cellOf peep dim w x j) k := by
    intro h0 j
    have := h.state (k - 1) (by omega) j
    rwa [Nat.sub_add_cancel h0] at this
  refine ⟨_, _, rfl, ⟨rfl, hk.le, hroom, hmo, ?_, h.inp, h.ingatex, h.forgetgatex, h.outgatex, h.ingate, h.forgetgate, h.outgate, h.state, ?_, ?_, ?_, ?_⟩, ?_⟩
  · have hsum : ∀ i, ∑ t ∈ Ico k n, dpar T peep dim w x e n t i = dpar T peep dim w x e n k i + ∑ t ∈ Ico (k + 1) n, dpar T peep dim w x e n t i :=
      fun i => Finset.sum_eq_sum_Ico_succ_bot hk _
    dsimp only
    funext i
    rw [hsum, h.derivs]
    cases peep
    · simp [dpar]
    · simp only [if_true, dpar]
      split_ifs with h1 h2 h3 h4
      all_goals first
        | (rw [h.state k hk]; ring)
        | (rw [hst (by assumption)]; ring)
        | (have h00 : k = 0 := by omega
           subst h00; simp [before])
  · intro t j ht
    simp only [setRow]
    by_cases h1 : t = k
    · rw [if_pos h1, h1]
    · rw [if_neg h1]; exact h.ie t j (by omega)
  · intro t j ht
    simp only [setRow]
    by_cases h1 : t = k
    · rw [if_pos h1, h1]
    · rw [if_neg h1]; exact h.fe t j (by omega)
  · intro t j ht
    simp only [setRow]
    rw [if_neg (by omega)]; exact h.fe0 t j (by omega)
  · intro t j ht
    simp only [setRow]
    by_cases h1 : t = k
    · rw [if_pos h1, h1]
    · rw [if_neg h1]; exact h.se t j (by omega)
  · funext i
    simp only [inerr]
    split_ifs
    · rfl
    · rfl
    · rw [h.ingate k hk, h.ingatex k hk, h.inp k hk]; rfl
    · rfl

theorem BInv.run {T : Trans K} {peep : Bool} {dim : Nat} {w : Vec K} {x e : Nat → Vec K} {d0 : Vec K} {n : Nat} :
    ∀ (k : Nat) {s : LState K}, BInv T peep dim w x e d0 n k s →
      ∃ s', backwardAll T peep dim w s ((List.range k).reverse.map e) = some (s', (List.range k).reverse.map (inerr T peep dim w x e n)) ∧
        BInv T peep dim w x e d0 n 0 s'
  | 0, s, h => ⟨s, by simp [backwardAll], h⟩
  | k + 1, s, h => by
    obtain ⟨s1, g, h1, h2, h3⟩ := h.step
    obtain ⟨s2, g1, g2⟩ := BInv.run k h2
    refine ⟨s2, ?_, g2⟩
    rw [List.range_succ, List.reverse_append, List.reverse_singleton, List.singleton_append, List.map_cons, backwardAll, h1]
    dsimp only
    rw [g1, List.map_cons, h3]

end Verif.Lstm
