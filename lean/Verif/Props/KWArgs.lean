import Verif.Model.KWArgs
import Mathlib.Logic.Basic
import Mathlib.Data.List.Basic
/-
C132: processing of keyword arguments.
-/
namespace Verif.KWArgs
open Verif.DataSet (Err)

variable {V : Type}

/-- the value an attribute gets: the supplied argument, otherwise the default, otherwise none -/
def Dsc.value (d : Dsc V) (kwargs : List (String × V)) : Option V := (arg kwargs d.name).or d.dflt

theorem add_ok (kwargs : List (String × V)) (obj : String → Option V) (d : Dsc V) (hv : ¬ (d.mandatory = true ∧ d.dflt.isSome = true))
    (hm : d.mandatory = true → (arg kwargs d.name).isSome = true) : (add kwargs obj d).2 = none ∧
    ∀ a, (add kwargs obj d).1 a = if a = d.attr then (d.value kwargs).or (obj a) else obj a := by
  unfold add
  rw [if_neg (by simpa using hv)]
  unfold Dsc.value
  cases ha : arg kwargs d.name with
  | some v => exact ⟨rfl, fun a => by by_cases h : a = d.attr <;> simp [setattr, h]⟩
  | none =>
    cases hd : d.dflt with
    | some v => exact ⟨rfl, fun a => by by_cases h : a = d.attr <;> simp [setattr, h]⟩
    | none =>
      have : d.mandatory = false := by
        cases hmm : d.mandatory with
        | false => rfl
        | true => have := hm hmm; rw [ha] at this; simp at this
      simp [this]

theorem addAll_ok (kwargs : List (String × V)) (obj : String → Option V) (d : Dsc V) (ds : List (Dsc V)) (h : (add kwargs obj d).2 = none) :
    addAll kwargs obj (d :: ds) = addAll kwargs (add kwargs obj d).1 ds := by
  rw [addAll]
  generalize add kwargs obj d = r at h ⊢
  obtain ⟨o, e⟩ := r
  simp only at h
  subst h
  rfl

theorem add_missing (kwargs : List (String × V)) (obj : String → Option V) (d : Dsc V) (hv : ¬ (d.mandatory = true ∧ d.dflt.isSome = true))
    (hm : d.mandatory = true) (h : arg kwargs d.name = none) : add kwargs obj d = (obj, some .keyError) := by
  unfold add
  rw [if_neg (by simpa using hv), h]
  have : d.dflt = none := by
    cases hd : d.dflt with
    | none => rfl
    | some v => exact absurd ⟨hm, by rw [hd]; rfl⟩ hv
  simp [this, hm]

end Verif.KWArgs

namespace Verif.Props
open Verif.DataSet (Err)
open Verif.KWArgs

variable {V : Type}

/-- **C132, values.** If all mandatory arguments are supplied, there is no exception and every described attribute has the supplied value, otherwise the default value, otherwise what it was before; private ones
have an underscore in front. No other attribute is changed. -/
theorem C132_values (kwargs : List (String × V)) (ds : List (Dsc V)) (obj : String → Option V) (hd : (ds.map Dsc.attr).Nodup)
    (hv : ∀ d ∈ ds, ¬ (d.mandatory = true ∧ d.dflt.isSome = true)) (hm : ∀ d ∈ ds, d.mandatory = true → (arg kwargs d.name).isSome = true) :
    (addAll kwargs obj ds).2 = none ∧ (∀ d ∈ ds, (addAll kwargs obj ds).1 (if d.priv then "_" ++ d.name else d.name) = ((arg kwargs d.name).or d.dflt).or (obj d.attr)) ∧
    ∀ a, a ∉ ds.map Dsc.attr → (addAll kwargs obj ds).1 a = obj a := by
  induction ds generalizing obj with
  | nil => exact ⟨rfl, by simp, fun a _ => rfl⟩
  | cons d ds ih =>
    obtain ⟨hd1, hd2⟩ := List.nodup_cons.1 (by simpa using hd : (d.attr :: ds.map Dsc.attr).Nodup)
    obtain ⟨e1, e2⟩ := add_ok kwargs obj d (hv d List.mem_cons_self) (hm d List.mem_cons_self)
    obtain ⟨i1, i2, i3⟩ := ih (add kwargs obj d).1 hd2 (fun x hx => hv x (List.mem_cons_of_mem _ hx)) (fun x hx => hm x (List.mem_cons_of_mem _ hx))
    have e : addAll kwargs obj (d :: ds) = addAll kwargs (add kwargs obj d).1 ds := by
      exact addAll_ok kwargs obj d ds e1
    rw [e]
    refine ⟨i1, ?_, ?_⟩
    · intro x hx
      rcases List.mem_cons.1 hx with rfl | hx
      · have := i3 x.attr hd1
        rw [e2, if_pos rfl] at this
        exact this
      · have hne : x.attr ≠ d.attr := fun h => hd1 (h ▸ List.mem_map.2 ⟨x, hx, rfl⟩)
        rw [i2 x hx, e2, if_neg hne]
    · intro a ha
      rw [List.map_cons, List.mem_cons, not_or] at ha
      rw [i3 a ha.2, e2, if_neg ha.1]

/-- **C132, missing arguments.** If a mandatory argument is missing, there is a KeyError; the arguments described before it have been set and those after it have not. -/
theorem C132_missing (kwargs : List (String × V)) (ds₁ ds₂ : List (Dsc V)) (d : Dsc V) (obj : String → Option V)
    (hv : ∀ x ∈ ds₁ ++ d :: ds₂, ¬ (x.mandatory = true ∧ x.dflt.isSome = true)) (hm : ∀ x ∈ ds₁, x.mandatory = true → (arg kwargs x.name).isSome = true)
    (hd : d.mandatory = true) (hmiss : arg kwargs d.name = none) : addAll kwargs obj (ds₁ ++ d :: ds₂) = ((addAll kwargs obj ds₁).1, some .keyError) := by
  induction ds₁ generalizing obj with
  | nil =>
    have e := add_missing kwargs obj d (hv d (by simp)) hd hmiss
    show addAll kwargs obj (d :: ds₂) = (obj, some .keyError)
    rw [addAll, e]
  | cons x ds₁ ih =>
    obtain ⟨e1, -⟩ := add_ok kwargs obj x (hv x (by simp)) (hm x List.mem_cons_self)
    rw [List.cons_append, addAll_ok kwargs obj x _ e1, addAll_ok kwargs obj x _ e1]
    exact ih _ (fun y hy => hv y (List.mem_cons_of_mem _ hy)) (fun y hy => hm y (List.mem_cons_of_mem _ hy))

/-- **C132, contradictory descriptions** (mandatory and with a default value) raise an AssertionError, whatever arguments are supplied. -/
theorem C132_contradiction (kwargs : List (String × V)) (d : Dsc V) (obj : String → Option V) (h1 : d.mandatory = true) (h2 : d.dflt.isSome = true) :
    add kwargs obj d = (obj, some .assertion) := by
  simp [add, h1, h2]

/-- **C132 violated: unknown arguments** (such as misspelt ones) are not refused but ignored. -/
theorem C132_negation_unknown (kwargs : List (String × V)) (name : String) (v : V) (ds : List (Dsc V)) (h : ∀ d ∈ ds, d.name ≠ name) (obj : String → Option V) :
    addAll ((name, v) :: kwargs) obj ds = addAll kwargs obj ds := by
  induction ds generalizing obj with
  | nil => rfl
  | cons d ds ih =>
    have ha : arg ((name, v) :: kwargs) d.name = arg kwargs d.name := by
      unfold arg
      rw [List.find?_cons_of_neg (by simpa using fun hn => h d List.mem_cons_self hn.symm)]
    have hadd : add ((name, v) :: kwargs) obj d = add kwargs obj d := by unfold add; rw [ha]
    rw [addAll, addAll, hadd]
    split
    · rfl
    · exact ih (fun x hx => h x (List.mem_cons_of_mem _ hx)) _

/-- the class of the file's own example -/
def kwExample : List (Dsc Int) := [{ name := "simple" }, { name := "a", dflt := some 33 }, { name := "b", priv := true, dflt := some 55 }, { name := "m", mandatory := true }]

example : (kwExample.map Dsc.attr).Nodup ∧ (addAll [("m", 1), ("b", 2)] (fun _ => none) kwExample).1 "_b" = some 2 ∧
    (addAll [("m", 1), ("b", 2)] (fun _ => none) kwExample).1 "a" = some 33 ∧ (addAll [("b", 2)] (fun _ => none) kwExample).2 = some .keyError := by
  decide +kernel

end Verif.Props
