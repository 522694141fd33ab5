import Verif.Model.Masked
import Verif.Spec.Masked
import Mathlib.Data.List.Count
import Mathlib.Data.List.Perm.Subperm
import Mathlib.Data.List.GetD
namespace Verif.Masked
open Verif.DataSet Spec

variable {K : Type}

theorem active_eq (mask : List Bool) : active mask = activeCount mask := by
  have : ∀ (l : List Bool) (n : Nat), l.foldl (fun n b => if b then n + 1 else n) n = n + l.count true := by
    intro l
    induction l with
    | nil => simp
    | cons b l ih =>
      intro n
      rw [List.foldl_cons, ih]
      cases b <;> simp [List.count_cons] <;> omega
  rw [active, this, activeCount]; omega

theorem masked_consistent [Zero K] (mask : List Bool) (vals : List K) (h : vals.length = mask.length) : Consistent mask vals (masked mask vals) := by
  refine ⟨h, by simp [masked, h], ?_, ?_⟩
  · intro i hi
    have hl : i < mask.length := (List.getElem?_eq_some_iff.1 hi).1
    rw [masked, List.getElem?_zipWith, hi, List.getElem?_eq_getElem (by omega)]
    rfl
  · intro i hi
    have hl : i < mask.length := (List.getElem?_eq_some_iff.1 hi).1
    rw [masked, List.getElem?_zipWith, hi, List.getElem?_eq_getElem (by omega)]
    rfl

theorem consistent_cont [Zero K] {mask : List Bool} {vals cont : List K} (h : Consistent mask vals cont) : cont = masked mask vals := by
  apply List.ext_getElem?
  intro i
  have h2 := masked_consistent mask vals h.len
  cases hm : mask[i]? with
  | none =>
    have hl := List.getElem?_eq_none_iff.1 hm
    rw [List.getElem?_eq_none (by rw [h.lenC]; exact hl), List.getElem?_eq_none (by rw [h2.lenC]; exact hl)]
  | some b =>
    cases b with
    | true => rw [h.on i hm, h2.on i hm]
    | false => rw [h.off i hm, h2.off i hm]

theorem activeVals_length (mask : List Bool) : ∀ vals : List K, vals.length = mask.length → (activeVals mask vals).length = activeCount mask := by
  induction mask with
  | nil => intro vals h; simp [activeVals, activeCount]
  | cons b bs ih =>
    intro vals h
    cases vals with
    | nil => simp at h
    | cons v vs =>
      have := ih vs (by simpa using h)
      cases b <;> simp_all [activeVals, activeCount]

theorem packLoop_eq (l : List (Bool × K)) : ∀ (x : List K) (pc : Nat), pc + (l.filter Prod.fst).length = x.length →
    packLoop l x pc = x.take pc ++ (l.filter Prod.fst).map Prod.snd := by
  induction l with
  | nil => intro x pc h; simp at h; simp [packLoop, h]
  | cons p l ih =>
    obtain ⟨b, v⟩ := p
    intro x pc h
    cases b with
    | false => simp only [packLoop, Bool.false_eq_true, if_false]; rw [ih x pc (by simpa using h)]; simp
    | true =>
      simp only [packLoop, if_true]
      simp only [List.filter_cons_of_pos, List.length_cons] at h
      rw [ih _ _ (by simp; omega)]
      rw [List.take_add_one, List.take_set_of_le (Nat.le_refl pc)]
      simp [show pc < x.length by omega]

theorem setLoop_ok (bs : List Bool) : ∀ (vs x : List K) (pc : Nat), vs.length = bs.length → pc + activeCount bs ≤ x.length →
    (setLoop bs vs x pc).2 = none ∧ (setLoop bs vs x pc).1.length = bs.length ∧
    activeVals bs (setLoop bs vs x pc).1 = (x.drop pc).take (activeCount bs) ∧
    (∀ i : Nat, bs[i]? = some false → (setLoop bs vs x pc).1[i]? = vs[i]?) := by
  induction bs with
  | nil =>
    intro vs x pc h _
    have : vs = [] := by cases vs <;> simp_all
    subst this
    simp [setLoop, activeVals, activeCount]
  | cons b bs ih =>
    intro vs x pc h hx
    cases vs with
    | nil => simp at h
    | cons v vs =>
      have hl : vs.length = bs.length := by simpa using h
      cases b with
      | false =>
        have hx' : pc + activeCount bs ≤ x.length := by simpa [activeCount] using hx
        obtain ⟨e1, e2, e3, e4⟩ := ih vs x pc hl hx'
        simp only [setLoop, Bool.false_eq_true, if_false]
        refine ⟨e1, by simp [e2], ?_, ?_⟩
        · have : activeVals (false :: bs) (v :: (setLoop bs vs x pc).1) = activeVals bs (setLoop bs vs x pc).1 := by simp [activeVals]
          rw [this, e3]; simp [activeCount]
        · intro i hi
          cases i with
          | zero => simp
          | succ i => simpa using e4 i (by simpa using hi)
      | true =>
        have hc : activeCount (true :: bs) = activeCount bs + 1 := by simp [activeCount]
        rw [hc] at hx
        have hpc : pc < x.length := by omega
        obtain ⟨e1, e2, e3, e4⟩ := ih vs x (pc + 1) hl (by omega)
        simp only [setLoop, if_true, List.getElem?_eq_getElem hpc]
        refine ⟨e1, by simp [e2], ?_, ?_⟩
        · have : activeVals (true :: bs) (x[pc] :: (setLoop bs vs x (pc + 1)).1) = x[pc] :: activeVals bs (setLoop bs vs x (pc + 1)).1 := by
            simp [activeVals]
          rw [this, e3, hc, List.drop_eq_getElem_cons hpc, List.take_succ_cons]
        · intro i hi
          cases i with
          | zero => simp at hi
          | succ i => simpa using e4 i (by simpa using hi)

theorem setLoop_short (bs : List Bool) : ∀ (vs x : List K) (pc : Nat), vs.length = bs.length → x.length < pc + activeCount bs → pc ≤ x.length →
    (setLoop bs vs x pc).2 = some .indexError := by
  induction bs with
  | nil => intro vs x pc _ h1 h2; simp [activeCount] at h1; omega
  | cons b bs ih =>
    intro vs x pc h h1 h2
    cases vs with
    | nil => simp at h
    | cons v vs =>
      have hl : vs.length = bs.length := by simpa using h
      cases b with
      | false =>
        simp only [setLoop, Bool.false_eq_true, if_false]
        exact ih vs x pc hl (by simpa [activeCount] using h1) h2
      | true =>
        have hc : activeCount (true :: bs) = activeCount bs + 1 := by simp [activeCount]
        simp only [setLoop, if_true]
        by_cases hpc : pc < x.length
        · rw [List.getElem?_eq_getElem hpc]
          exact ih vs x (pc + 1) hl (by omega) (by omega)
        · rw [List.getElem?_eq_none (by omega)]

/-- equal active values and equal inactive values make equal lists -/
theorem vals_ext (bs : List Bool) : ∀ (vs ws : List K), vs.length = bs.length → ws.length = bs.length → activeVals bs vs = activeVals bs ws →
    (∀ i : Nat, bs[i]? = some false → vs[i]? = ws[i]?) → vs = ws := by
  induction bs with
  | nil => intro vs ws h1 h2 _ _; cases vs <;> cases ws <;> simp_all
  | cons b bs ih =>
    intro vs ws h1 h2 h3 h4
    cases vs with
    | nil => simp at h1
    | cons v vs =>
      cases ws with
      | nil => simp at h2
      | cons w ws =>
        have ht : ∀ i : Nat, bs[i]? = some false → vs[i]? = ws[i]? := fun i hi => by simpa using h4 (i + 1) (by simpa using hi)
        cases b with
        | false =>
          have h0 := h4 0 rfl
          have := ih vs ws (by simpa using h1) (by simpa using h2) (by simpa [activeVals] using h3) ht
          simp_all
        | true =>
          simp only [activeVals, List.zip_cons_cons, List.filter_cons_of_pos, List.map_cons, List.cons.injEq] at h3
          have := ih vs ws (by simpa using h1) (by simpa using h2) h3.2 ht
          simp [h3.1, this]

theorem count_set_false (l : List Bool) (i : Nat) (h : l.getD i false = true) : (l.set i false).count true + 1 = l.count true := by
  induction l generalizing i with
  | nil => simp at h
  | cons b l ih =>
    cases i with
    | zero => simp at h; subst h; simp
    | succ i =>
      have := ih i (by simpa using h)
      rw [List.set_cons_succ, List.count_cons, List.count_cons]
      omega

theorem dropLoop_spec (draw : Nat → Nat) : ∀ (fuel k pos : Nat) (mask m : List Bool) (p : Nat), dropLoop draw fuel k pos mask = some (m, p) →
    m.length = mask.length ∧ activeCount m + k = activeCount mask := by
  intro fuel
  induction fuel with
  | zero =>
    intro k pos mask m p h
    cases k with
    | zero => simp only [dropLoop, Option.some.injEq, Prod.mk.injEq] at h; rw [← h.1]; exact ⟨rfl, rfl⟩
    | succ k => simp [dropLoop] at h
  | succ fuel ih =>
    intro k pos mask m p h
    cases k with
    | zero => simp only [dropLoop, Option.some.injEq, Prod.mk.injEq] at h; rw [← h.1]; exact ⟨rfl, rfl⟩
    | succ k =>
      rw [dropLoop] at h
      split at h
      · rename_i hd
        obtain ⟨e1, e2⟩ := ih k (pos + 1) _ m p h
        refine ⟨by simpa using e1, ?_⟩
        have := count_set_false mask (draw pos) hd
        simp only [activeCount] at e2 ⊢
        omega
      · exact ih (k + 1) (pos + 1) mask m p h

theorem exists_on (mask : List Bool) (h : 0 < activeCount mask) : ∃ i, mask.getD i false = true := by
  have : true ∈ mask := List.count_pos_iff.1 h
  obtain ⟨i, hi, e⟩ := List.getElem_of_mem this
  exact ⟨i, by rw [List.getD_eq_getElem?_getD, List.getElem?_eq_getElem hi, e]; rfl⟩

theorem dropLoop_wait (draw : Nat → Nat) (k : Nat) (mask : List Bool) : ∀ (w pos : Nat),
    (∃ d, d ≤ w ∧ mask.getD (draw (pos + d)) false = true) →
    ∃ d, mask.getD (draw (pos + d)) false = true ∧
      ∀ fuel, dropLoop draw (fuel + d + 1) (k + 1) pos mask = dropLoop draw fuel k (pos + d + 1) (mask.set (draw (pos + d)) false) := by
  intro w
  induction w with
  | zero =>
    intro pos ⟨d, hd, hm⟩
    have : d = 0 := by omega
    subst this
    exact ⟨0, hm, fun fuel => by rw [dropLoop]; exact if_pos hm⟩
  | succ w ih =>
    intro pos ⟨d, hd, hm⟩
    by_cases h0 : mask.getD (draw pos) false = true
    · exact ⟨0, h0, fun fuel => by rw [dropLoop]; exact if_pos h0⟩
    · have hd1 : 0 < d := by
        rcases Nat.eq_zero_or_pos d with h | h
        · subst h; exact absurd hm h0
        · exact h
      obtain ⟨d', h2, h3⟩ := ih (pos + 1) ⟨d - 1, by omega, by rw [show pos + 1 + (d - 1) = pos + d by omega]; exact hm⟩
      refine ⟨d' + 1, by rw [show pos + (d' + 1) = pos + 1 + d' by omega]; exact h2, fun fuel => ?_⟩
      rw [show fuel + (d' + 1) + 1 = (fuel + d' + 1) + 1 by omega, dropLoop, if_neg h0, h3]
      rw [show pos + 1 + d' = pos + (d' + 1) by omega]

/-- if every position is drawn again and again, the loop ends -/
theorem dropLoop_total (draw : Nat → Nat) (n : Nat) (hfair : ∀ i < n, ∀ t, ∃ d, draw (t + d) = i) : ∀ (k pos : Nat) (mask : List Bool),
    mask.length = n → k ≤ activeCount mask → ∃ fuel r, dropLoop draw fuel k pos mask = some r := by
  intro k
  induction k with
  | zero => intro pos mask _ _; exact ⟨0, _, rfl⟩
  | succ k ih =>
    intro pos mask hl hk
    obtain ⟨i, hi⟩ := exists_on mask (by omega)
    have hin : i < n := by
      rw [← hl]
      by_contra hc
      rw [List.getD_eq_getElem?_getD, List.getElem?_eq_none (by omega)] at hi
      simp at hi
    obtain ⟨d, hd⟩ := hfair i hin pos
    obtain ⟨e, hm, heq⟩ := dropLoop_wait draw k mask d pos ⟨d, Nat.le_refl d, by rw [hd]; exact hi⟩
    have hc := count_set_false mask _ hm
    obtain ⟨fuel, r, hr⟩ := ih (pos + e + 1) (mask.set (draw (pos + e)) false) (by simpa using hl) (by simp only [activeCount] at hk ⊢; omega)
    exact ⟨fuel + e + 1, r, by rw [heq, hr]⟩

theorem count_set_true (l : List Bool) (i : Nat) (hi : i < l.length) (h : l.count true = 0) : (l.set i true).count true = 1 := by
  induction l generalizing i with
  | nil => simp at hi
  | cons b l ih =>
    rw [List.count_cons] at h
    have hb : b = false := by cases b <;> simp_all
    have hc : l.count true = 0 := by omega
    subst hb
    cases i with
    | zero => simp [hc]
    | succ i => simpa using ih i (by simpa using hi) hc

theorem flipBits_length (flip : Nat → Bool) (mask : List Bool) : (flipBits flip mask).length = mask.length := by simp [flipBits]

end Verif.Masked
