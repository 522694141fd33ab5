import Verif.Lemmas.LstmNet
/-
Lemmas for C174: the model of a network with LSTM layers simulates the extended network, which has ordinary modules only.
-/
namespace Verif.LstmNet
open Verif.Net Verif.Net.Spec Verif.LstmNet.Spec Finset

/-! ### one layer -/

/-- Row `u` of the memory of a layer holds the values of the cells for the extended input `x`. -/
structure MemRow (k : Kind ℝ) (w x : Vec ℝ) (l : Lstm.LState ℝ) (u : Nat) : Prop where
  before : ∀ j < k.dim, pre k x j = if 0 < u then l.state (u - 1) j else 0
  cell : ∀ j < k.dim, l.inputbuffer u (2 * k.dim + j) = x (2 * k.dim + j)
  ingatex : ∀ j < k.dim, l.ingatex u j = gi k w x j
  forgetgatex : ∀ j < k.dim, l.forgetgatex u j = gf k w x j
  outgatex : ∀ j < k.dim, l.outgatex u j = go k w x j
  ingate : ∀ j < k.dim, l.ingate u j = k.T.f (gi k w x j)
  forgetgate : ∀ j < k.dim, l.forgetgate u j = k.T.f (gf k w x j)
  outgate : ∀ j < k.dim, l.outgate u j = k.T.f (go k w x j)
  state : ∀ j < k.dim, l.state u j = st k w x j

/-- what the forward pass at `o` does not change -/
structure Keep (o : Nat) (l1 l : Lstm.LState ℝ) : Prop where
  rows : l1.rows = l.rows
  maxoffset : l.maxoffset ≤ l1.maxoffset
  inputbuffer : ∀ t < o, l1.inputbuffer t = l.inputbuffer t
  ingatex : ∀ t < o, l1.ingatex t = l.ingatex t
  forgetgatex : ∀ t < o, l1.forgetgatex t = l.forgetgatex t
  outgatex : ∀ t < o, l1.outgatex t = l.outgatex t
  ingate : ∀ t < o, l1.ingate t = l.ingate t
  forgetgate : ∀ t < o, l1.forgetgate t = l.forgetgate t
  outgate : ∀ t < o, l1.outgate t = l.outgate t
  state : ∀ t < o, l1.state t = l.state t
  ingateError : l1.ingateError = l.ingateError
  forgetgateError : l1.forgetgateError = l.forgetgateError
  stateError : l1.stateError = l.stateError

theorem MemRow.keep {k : Kind ℝ} {w x : Vec ℝ} {l l1 : Lstm.LState ℝ} {u o : Nat} (h : MemRow k w x l u) (hk : Keep o l1 l) (hu : u < o) : MemRow k w x l1 u := by
  obtain ⟨h1, h2, h3, h4, h5, h6, h7, h8, h9⟩ := h
  refine ⟨?_, ?_, ?_, ?_, ?_, ?_, ?_, ?_, ?_⟩
  · intro j hj; rw [h1 j hj, hk.state _ (by omega)]
  · rw [hk.inputbuffer _ hu]; exact h2
  · rw [hk.ingatex _ hu]; exact h3
  · rw [hk.forgetgatex _ hu]; exact h4
  · rw [hk.outgatex _ hu]; exact h5
  · rw [hk.ingate _ hu]; exact h6
  · rw [hk.forgetgate _ hu]; exact h7
  · rw [hk.outgate _ hu]; exact h8
  · rw [hk.state _ hu]; exact h9

theorem setRow_same {K : Type} (b : Nat → Vec K) (o : Nat) (v : Vec K) : Lstm.setRow b o v o = v := by simp [Lstm.setRow]
theorem setRow_ne {K : Type} (b : Nat → Vec K) (o : Nat) (v : Vec K) {t : Nat} (h : t ≠ o) : Lstm.setRow b o v t = b t := by simp [Lstm.setRow, h]

theorem lstm_forward (k : Kind ℝ) (w x x' : Vec ℝ) (l : Lstm.LState ℝ) (o : Nat) (ho : l.offset = o) (hr : o < l.rows)
    (hx : ∀ j < 4 * k.dim, x' j = x j) (hp : ∀ j < k.dim, pre k x' j = if 0 < o then l.state (o - 1) j else 0) :
    ∃ l1 y, Lstm.forward k.T k.peepholes k.dim w l x = some (l1, y) ∧ (∀ j < k.dim, y j = out k w x' j) ∧ MemRow k w x' l1 o ∧ Keep o l1 l ∧
      o + 1 ≤ l1.maxoffset := by
  subst ho
  have e1 : ∀ j < k.dim, (if k.peepholes && decide (0 < l.offset) then fun j => x j + w j * l.state (l.offset - 1) j else fun j => x j) j = gi k w x' j := by
    intro j hj
    unfold gi wi
    rw [hp j hj, hx j (by omega)]
    by_cases h1 : k.peepholes <;> by_cases h2 : 0 < l.offset <;> simp [h1, h2]
  have e2 : ∀ j < k.dim, (if k.peepholes && decide (0 < l.offset) then fun j => x (k.dim + j) + w (k.dim + j) * l.state (l.offset - 1) j else fun j => x (k.dim + j)) j =
      gf k w x' j := by
    intro j hj
    unfold gf wf
    rw [hp j hj, hx (k.dim + j) (by omega)]
    by_cases h1 : k.peepholes <;> by_cases h2 : 0 < l.offset <;> simp [h1, h2]
  unfold Lstm.forward
  simp only [hr, if_true]
  generalize (if k.peepholes && decide (0 < l.offset) then fun j => x j + w j * l.state (l.offset - 1) j else fun j => x j) = A at e1 ⊢
  generalize (if k.peepholes && decide (0 < l.offset) then fun j => x (k.dim + j) + w (k.dim + j) * l.state (l.offset - 1) j else fun j => x (k.dim + j)) = B at e2 ⊢
  have e3 : ∀ j < k.dim, (if 0 < l.offset then fun j => k.T.f (A j) * k.T.g (x (2 * k.dim + j)) + k.T.f (B j) * l.state (l.offset - 1) j
      else fun j => k.T.f (A j) * k.T.g (x (2 * k.dim + j))) j = st k w x' j := by
    intro j hj
    unfold st
    rw [hp j hj, ← e1 j hj, ← e2 j hj, hx (2 * k.dim + j) (by omega)]
    by_cases h2 : 0 < l.offset <;> simp [h2]
  generalize (if 0 < l.offset then fun j => k.T.f (A j) * k.T.g (x (2 * k.dim + j)) + k.T.f (B j) * l.state (l.offset - 1) j
      else fun j => k.T.f (A j) * k.T.g (x (2 * k.dim + j))) = S at e3 ⊢
  have e4 : ∀ j < k.dim, (if k.peepholes then fun j => x (3 * k.dim + j) + w (2 * k.dim + j) * S j else fun j => x (3 * k.dim + j)) j = go k w x' j := by
    intro j hj
    unfold go wo
    rw [hx (3 * k.dim + j) (by omega), ← e3 j hj]
    by_cases h1 : k.peepholes <;> simp [h1]
  generalize (if k.peepholes then fun j => x (3 * k.dim + j) + w (2 * k.dim + j) * S j else fun j => x (3 * k.dim + j)) = O at e4 ⊢
  refine ⟨_, _, rfl, ?_, ?_, ?_, ?_⟩
  · intro j hj
    rw [e4 j hj, e3 j hj]; rfl
  · refine ⟨?_, ?_, ?_, ?_, ?_, ?_, ?_, ?_, ?_⟩ <;> dsimp only
    · intro j hj
      rw [hp j hj]
      by_cases h : 0 < l.offset
      · rw [if_pos h, if_pos h, setRow_ne _ _ _ (by omega)]
      · rw [if_neg h, if_neg h]
    all_goals (intro j hj; rw [setRow_same])
    · exact (hx _ (by omega)).symm
    · exact e1 j hj
    · exact e2 j hj
    · exact e4 j hj
    · rw [e1 j hj]
    · rw [e2 j hj]
    · rw [e4 j hj]
    · exact e3 j hj
  · refine ⟨rfl, le_max_right _ _, ?_, ?_, ?_, ?_, ?_, ?_, ?_, ?_, rfl, rfl, rfl⟩ <;>
      (intro t ht; exact setRow_ne _ _ _ (by omega))
  · exact le_max_left _ _

/-- what the next step sends back to the state, lstm.py:127-131 -/
noncomputable def nextErr (k : Kind ℝ) (w : Vec ℝ) (l : Lstm.LState ℝ) (u j : Nat) : ℝ :=
  l.stateError u j * l.forgetgate u j + l.ingateError u j * wi k w j + l.forgetgateError u j * wf k w j

/-- what the backward pass at `o` does not change -/
structure KeepB (k : Kind ℝ) (w : Vec ℝ) (o : Nat) (l1 l : Lstm.LState ℝ) : Prop where
  rows : l1.rows = l.rows
  maxoffset : l1.maxoffset = l.maxoffset
  mem : ∀ x u, MemRow k w x l u → MemRow k w x l1 u
  next : ∀ u ≠ o, ∀ j, nextErr k w l1 u j = nextErr k w l u j
  fe : ∀ u ≠ o, l1.forgetgateError u = l.forgetgateError u

theorem lstm_backward (k : Kind ℝ) (w x' e e' : Vec ℝ) (l : Lstm.LState ℝ) (o : Nat) (ho : l.offset = o) (hr : o + 1 < l.rows) (hm : l.maxoffset ≠ o)
    (h : MemRow k w x' l o) (he : ∀ j < k.dim, e' j = e j) (hn : ∀ j < k.dim, e' (k.dim + j) = nextErr k w l (o + 1) j)
    (hf : ∀ j < k.dim, l.forgetgateError o j = 0) (pc : P) :
    ∃ l1 g, Lstm.backward k.T k.peepholes k.dim w l e = some (l1, g) ∧
      (∀ i < 4 * k.dim, g i = (extMod k pc).bwdErr w e' (fun _ => 0) (fun _ => 0) x' i) ∧
      (∀ j < k.dim, nextErr k w l1 o j = pe k w x' j e') ∧
      (∀ i < (if k.peepholes then 3 * k.dim else 0), l1.derivs i = l.derivs i + (extMod k pc).bwdPar w e' (fun _ => 0) x' i) ∧
      (k.peepholes = false → l1.derivs = l.derivs) ∧
      KeepB k w o l1 l := by
  subst ho
  obtain ⟨m1, m2, m3, m4, m5, m6, m7, m8, m9⟩ := h
  obtain ⟨OG, hOG⟩ : ∃ f : Vec ℝ, f = fun j => k.T.fprime (l.outgatex l.offset j) * e j * k.T.h (l.state l.offset j) := ⟨_, rfl⟩
  obtain ⟨S, hS⟩ : ∃ f : Vec ℝ, f = (if k.peepholes then fun j => (if k.peepholes then fun j => e j * l.outgate l.offset j * k.T.hprime (l.state l.offset j) +
        l.stateError (l.offset + 1) j * l.forgetgate (l.offset + 1) j + l.ingateError (l.offset + 1) j * w j + l.forgetgateError (l.offset + 1) j * w (k.dim + j)
      else fun j => e j * l.outgate l.offset j * k.T.hprime (l.state l.offset j) +
        l.stateError (l.offset + 1) j * l.forgetgate (l.offset + 1) j) j + OG j * w (2 * k.dim + j)
      else (if k.peepholes then fun j => e j * l.outgate l.offset j * k.T.hprime (l.state l.offset j) +
        l.stateError (l.offset + 1) j * l.forgetgate (l.offset + 1) j + l.ingateError (l.offset + 1) j * w j + l.forgetgateError (l.offset + 1) j * w (k.dim + j)
      else fun j => e j * l.outgate l.offset j * k.T.hprime (l.state l.offset j) +
        l.stateError (l.offset + 1) j * l.forgetgate (l.offset + 1) j)) := ⟨_, rfl⟩
  obtain ⟨F, hF⟩ : ∃ f : Vec ℝ, f = if 0 < l.offset then fun j => k.T.fprime (l.forgetgatex l.offset j) * S j * l.state (l.offset - 1) j else l.forgetgateError l.offset := ⟨_, rfl⟩
  obtain ⟨I, hI⟩ : ∃ f : Vec ℝ, f = fun j => k.T.fprime (l.ingatex l.offset j) * S j * k.T.g (l.inputbuffer l.offset (2 * k.dim + j)) := ⟨_, rfl⟩
  obtain ⟨D, hD⟩ : ∃ f : Vec ℝ, f = if k.peepholes then
        fun i => if 2 * k.dim ≤ i then l.derivs i + OG (i - 2 * k.dim) * l.state l.offset (i - 2 * k.dim)
          else if 0 < l.offset then
            if k.dim ≤ i then l.derivs i + F (i - k.dim) * l.state (l.offset - 1) (i - k.dim) else l.derivs i + I i * l.state (l.offset - 1) i
          else l.derivs i
      else l.derivs := ⟨_, rfl⟩
  have key : Lstm.backward k.T k.peepholes k.dim w l e = some ({ l with
      outgateError := Lstm.setRow l.outgateError l.offset OG, stateError := Lstm.setRow l.stateError l.offset S
      forgetgateError := Lstm.setRow l.forgetgateError l.offset F, ingateError := Lstm.setRow l.ingateError l.offset I, derivs := D },
      fun i => if i < k.dim then I i else if i < 2 * k.dim then F (i - k.dim)
        else if i < 3 * k.dim then l.ingate l.offset (i - 2 * k.dim) * k.T.gprime (l.inputbuffer l.offset (2 * k.dim + (i - 2 * k.dim))) * S (i - 2 * k.dim)
        else OG (i - 3 * k.dim)) := by
    subst hOG hS hF hI hD
    unfold Lstm.backward
    have hd : decide (l.maxoffset = l.offset) = false := by simp [hm]
    simp only [hd, Bool.false_eq_true, if_false]
    rw [if_pos ⟨by omega, fun _ => hr⟩]
  rw [key]
  have eo : ∀ j < k.dim, OG j = oge k w x' j e' := by
    intro j hj
    unfold oge
    rw [hOG]
    dsimp only
    rw [m5 j hj, m9 j hj, he j hj]
  have es : ∀ j < k.dim, S j = se k w x' j e' := by
    intro j hj
    unfold se
    rw [hn j hj, ← eo j hj, he j hj, ← m8 j hj, ← m9 j hj, hS]
    unfold nextErr wi wf wo
    by_cases hp : k.peepholes <;> simp [hp]
    ring
  have hpre : ∀ j < k.dim, 0 < l.offset → l.state (l.offset - 1) j = pre k x' j := by
    intro j hj h0
    rw [m1 j hj, if_pos h0]
  have hpre0 : ∀ j < k.dim, ¬ 0 < l.offset → pre k x' j = 0 := by
    intro j hj h0
    rw [m1 j hj, if_neg h0]
  have ef : ∀ j < k.dim, F j = fge k w x' j e' := by
    intro j hj
    unfold fge
    rw [← es j hj, hF]
    by_cases h0 : 0 < l.offset
    · simp only [h0, if_true]
      rw [m4 j hj, hpre j hj h0]
    · simp only [h0, if_false]
      rw [hf j hj, hpre0 j hj h0]; ring
  have ei : ∀ j < k.dim, I j = ige k w x' j e' := by
    intro j hj
    unfold ige
    rw [hI]
    dsimp only
    rw [m3 j hj, es j hj, m2 j hj]
  clear hOG hS hF hI
  refine ⟨_, _, rfl, ?_, ?_, ?_, ?_, ?_⟩
  · intro i hi
    simp only [extMod]
    by_cases h1 : i < k.dim
    · rw [if_pos h1, if_pos h1, ei i h1]
    rw [if_neg h1, if_neg h1]
    by_cases h2 : i < 2 * k.dim
    · rw [if_pos h2, if_pos h2, ef _ (by omega)]
    rw [if_neg h2, if_neg h2]
    by_cases h3 : i < 3 * k.dim
    · rw [if_pos h3, if_pos h3]
      unfold ce
      rw [m6 _ (by omega), es _ (by omega), m2 _ (by omega)]
    rw [if_neg h3, if_neg h3, if_pos hi, eo _ (by omega)]
  · intro j hj
    unfold nextErr pe
    simp only [setRow_same]
    rw [es j hj, ei j hj, ef j hj, m7 j hj]
  · intro i hi
    by_cases hp : k.peepholes
    swap
    · rw [if_neg hp] at hi; omega
    rw [if_pos hp] at hi
    rw [hD]
    simp only [hp, if_true, extMod]
    by_cases h1 : 2 * k.dim ≤ i
    · rw [if_pos h1, if_neg (by omega), if_neg (by omega), eo _ (by omega), m9 _ (by omega)]
    rw [if_neg h1]
    by_cases h0 : 0 < l.offset
    · simp only [h0, if_true]
      by_cases h2 : k.dim ≤ i
      · rw [if_pos h2, if_neg (by omega), if_pos (by omega), ef _ (by omega), hpre _ (by omega) h0]
      · rw [if_neg h2, if_pos (by omega), ei _ (by omega), hpre _ (by omega) h0]
    · simp only [h0, if_false]
      by_cases h2 : k.dim ≤ i
      · rw [if_neg (by omega), if_pos (by omega), hpre0 _ (by omega) h0]; ring
      · rw [if_pos (by omega), hpre0 _ (by omega) h0]; ring
  · intro hp
    rw [hD]
    simp [hp]
  · refine ⟨rfl, rfl, ?_, ?_, ?_⟩
    · intro x u hu
      exact ⟨hu.before, hu.cell, hu.ingatex, hu.forgetgatex, hu.outgatex, hu.ingate, hu.forgetgate, hu.outgate, hu.state⟩
    · intro u hu j
      unfold nextErr
      simp only [setRow_ne _ _ _ hu]
    · intro u hu
      exact setRow_ne _ _ _ hu

end Verif.LstmNet
