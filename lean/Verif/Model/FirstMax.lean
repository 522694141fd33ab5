import Mathlib.Order.Defs.LinearOrder
import Mathlib.Order.Basic
/-
numpy's `argmax` on a list of items with values: the first item whose value is largest. (Not a model of code in /repo.)
-/
namespace Verif.Py

/-- the item of `l` at position `array([f x for x in l]).argmax()`; `none` for an empty list (`argmax` raises ValueError) -/
def firstMax {α K : Type} [LT K] [DecidableLT K] (f : α → K) : List α → Option α
  | [] => none
  | a :: l =>
    match firstMax f l with
    | none => some a
    | some b => if f a < f b then some b else some a

theorem firstMax_none {α K : Type} [LT K] [DecidableLT K] (f : α → K) (l : List α) : firstMax f l = none ↔ l = [] := by
  cases l with
  | nil => simp [firstMax]
  | cons a l =>
    simp only [firstMax]
    cases firstMax f l <;> simp
    split <;> simp

theorem firstMax_spec {α K : Type} [LinearOrder K] (f : α → K) : ∀ (l : List α) (b : α), firstMax f l = some b →
    b ∈ l ∧ ∀ x ∈ l, f x ≤ f b := by
  intro l
  induction l with
  | nil => intro b h; simp [firstMax] at h
  | cons a l ih =>
    intro b h
    simp only [firstMax] at h
    cases hm : firstMax f l with
    | none =>
      rw [hm] at h
      simp only [Option.some.injEq] at h
      subst h
      have := (firstMax_none f l).1 hm
      subst this
      simp
    | some c =>
      rw [hm] at h
      obtain ⟨h1, h2⟩ := ih c hm
      simp only at h
      split at h
      · rename_i hlt
        simp only [Option.some.injEq] at h
        subst h
        refine ⟨List.mem_cons_of_mem _ h1, fun x hx => ?_⟩
        rcases List.mem_cons.1 hx with rfl | hx
        · exact le_of_lt hlt
        · exact h2 x hx
      · rename_i hlt
        simp only [Option.some.injEq] at h
        subst h
        refine ⟨List.mem_cons_self, fun x hx => ?_⟩
        rcases List.mem_cons.1 hx with rfl | hx
        · exact le_rfl
        · exact le_trans (h2 x hx) (not_lt.1 hlt)

theorem firstMax_isSome {α K : Type} [LT K] [DecidableLT K] (f : α → K) (l : List α) (h : l ≠ []) : ∃ b, firstMax f l = some b := by
  cases hm : firstMax f l with
  | none => exact absurd ((firstMax_none f l).1 hm) h
  | some b => exact ⟨b, rfl⟩

end Verif.Py
