import Verif.Model.Enumerate
import Mathlib.Data.List.Forall2
import Mathlib.Data.List.Nodup
import Mathlib.Data.List.Dedup
/-
Property theorems C18 (enumeration helpers of pybrain/utilities.py).
-/
namespace Verif.Props
open Verif.Enum Verif.DataSet List

theorem nodup_flatMap_append {α : Type} (ls : List (List α)) (vs : List α) (h1 : ls.Nodup) (h2 : vs.Nodup) :
    (ls.flatMap (fun pre => vs.map (fun i => pre ++ [i]))).Nodup := by
  rw [List.nodup_flatMap]
  refine ⟨fun x _ => h2.map (fun a b hab => by simpa using hab), ?_⟩
  refine h1.imp ?_
  intro a b hab x hx hy
  simp only [List.mem_map] at hx hy
  obtain ⟨i, _, rfl⟩ := hx
  obtain ⟨j, _, hj⟩ := hy
  have := List.append_inj' hj rfl
  exact hab this.1.symm

theorem iterCombRev_spec : ∀ l : List Nat, l ≠ [] →
    (iterCombRev l).Nodup ∧ ∀ x, x ∈ iterCombRev l ↔ Forall₂ (· < ·) x.reverse l := by
  intro l
  induction l with
  | nil => intro h; exact absurd rfl h
  | cons n l ih =>
    intro _
    cases l with
    | nil =>
      refine ⟨List.nodup_range.map (fun a b h => by simpa using h), fun x => ?_⟩
      simp only [iterCombRev, List.mem_map, List.mem_range]
      constructor
      · rintro ⟨i, hi, rfl⟩
        exact Forall₂.cons hi Forall₂.nil
      · intro h
        cases hx : x.reverse with
        | nil => rw [hx] at h; cases h
        | cons a t =>
          rw [hx] at h
          cases h with
          | cons h1 h2 =>
            cases h2
            refine ⟨a, h1, ?_⟩
            rw [← List.reverse_reverse x, hx]; rfl
    | cons m rest =>
      obtain ⟨i1, i2⟩ := ih (by simp)
      refine ⟨nodup_flatMap_append _ _ i1 List.nodup_range, fun x => ?_⟩
      simp only [iterCombRev, List.mem_flatMap, List.mem_map, List.mem_range]
      constructor
      · rintro ⟨pre, hp, i, hi, rfl⟩
        rw [List.reverse_append]
        exact Forall₂.cons hi ((i2 pre).1 hp)
      · intro h
        cases hx : x.reverse with
        | nil => rw [hx] at h; cases h
        | cons a t =>
          rw [hx] at h
          cases h with
          | cons h1 h2 =>
            refine ⟨t.reverse, (i2 _).2 (by rwa [List.reverse_reverse]), a, h1, ?_⟩
            rw [← List.reverse_reverse x, hx]; simp

/-- **C18, iterCombinations (partial).** For a tuple of at least one bound, the generator yields exactly the tuples of the
same length whose entries are below the bounds, each once. Missing: the empty tuple. -/
theorem C18_iterCombinations_partial (tup : List Nat) (h : tup ≠ []) :
    (iterCombinations tup).Nodup ∧ ∀ x, x ∈ iterCombinations tup ↔ Forall₂ (· < ·) x tup := by
  obtain ⟨h1, h2⟩ := iterCombRev_spec tup.reverse (by simpa using h)
  refine ⟨h1, fun x => ?_⟩
  unfold iterCombinations
  rw [h2 x, List.forall₂_reverse_iff]

/-- **C18, negation.** The product of no ranges has one element, the empty tuple, but nothing is yielded. -/
theorem C18_negation_iterCombinations : iterCombinations [] = [] ∧ Forall₂ (· < ·) ([] : List Nat) [] := ⟨rfl, Forall₂.nil⟩

example : iterCombinations [2, 3] = [[0, 0], [0, 1], [0, 2], [1, 0], [1, 1], [1, 2]] := by decide

theorem mapM_ok {α β : Type} (f : α → Except Err β) (g : α → β) (l : List α) (h : ∀ x ∈ l, f x = .ok (g x)) :
    l.mapM f = .ok (l.map g) := by
  induction l with
  | nil => rfl
  | cons x xs ih =>
    rw [List.mapM_cons, h x (by simp), ih (fun y hy => h y (by simp [hy]))]
    rfl

theorem foldl_append_flatten {α : Type} (xs : List (List α)) (a : List α) : xs.foldl (· ++ ·) a = a ++ xs.flatten := by
  induction xs generalizing a with
  | nil => simp
  | cons x xs ih => rw [List.foldl_cons, ih]; simp

/-- the Cartesian product, as a list -/
def product {α : Type} : List (List α) → List (List α)
  | [] => [[]]
  | s :: rest => s.flatMap (fun i => (product rest).map (fun l => i :: l))

theorem crossproduct_eq {α : Type} : ∀ (ss : List (List α)) (row : List α), ss ≠ [] → (∀ s ∈ ss.dropLast, s ≠ []) →
    crossproduct ss row = .ok ((product ss).map (row ++ ·)) := by
  intro ss
  induction ss with
  | nil => intro _ h; exact absurd rfl h
  | cons s ss ih =>
    intro row _ hne
    cases ss with
    | nil =>
      simp only [crossproduct, product, List.map_cons, List.map_nil]
      congr 1
      simp [List.map_flatMap, List.flatMap_singleton' ]
      induction s <;> simp_all
    | cons s' rest =>
      rw [crossproduct]
      have hs : s ≠ [] := hne s (by simp)
      rw [mapM_ok _ (fun i => (product (s' :: rest)).map ((row ++ [i]) ++ ·)) s
        (fun i _ => ih (row ++ [i]) (by simp) (fun t ht => hne t (by
          rw [List.dropLast_cons_of_ne_nil (by simp)]; exact List.mem_cons_of_mem _ ht)))]
      cases s with
      | nil => exact absurd rfl hs
      | cons i is =>
        simp only [List.map_cons, reduceAdd]
        rw [foldl_append_flatten]
        congr 1
        rw [show product ((i :: is) :: s' :: rest) = (i :: is).flatMap (fun i => (product (s' :: rest)).map (fun l => i :: l)) from rfl]
        generalize product (s' :: rest) = pr
        rw [List.map_flatMap, List.flatMap_cons]
        congr 1
        · simp
        · rw [List.flatMap_def]
          congr 1
          apply List.map_congr_left
          intro j _
          simp

theorem mem_product {α : Type} : ∀ (ss : List (List α)) (x : List α), x ∈ product ss ↔ Forall₂ (· ∈ ·) x ss := by
  intro ss
  induction ss with
  | nil => intro x; simp [product]
  | cons s ss ih =>
    intro x
    simp only [product, List.mem_flatMap, List.mem_map]
    constructor
    · rintro ⟨i, hi, l, hl, rfl⟩
      exact Forall₂.cons hi ((ih l).1 hl)
    · intro h
      cases h with
      | cons h1 h2 => exact ⟨_, h1, _, (ih _).2 h2, rfl⟩

theorem nodup_product {α : Type} : ∀ (ss : List (List α)), (∀ s ∈ ss, s.Nodup) → (product ss).Nodup := by
  intro ss
  induction ss with
  | nil => intro _; simp [product]
  | cons s ss ih =>
    intro h
    rw [product, List.nodup_flatMap]
    refine ⟨fun i _ => (ih (fun t ht => h t (by simp [ht]))).map (fun a b hab => by simpa using hab), ?_⟩
    refine (h s (by simp)).imp ?_
    intro a b hab x hx hy
    simp only [List.mem_map] at hx hy
    obtain ⟨l, _, rfl⟩ := hx
    obtain ⟨m, _, hm⟩ := hy
    exact hab (List.cons.inj hm).1.symm

/-- **C18, crossproduct (partial).** For one or more collections, all but possibly the last non-empty, `crossproduct` returns
exactly the lists with one element from each collection; each once if no collection has repetitions. Missing: an empty
collection that is not the last (an exception, see the negation) and the empty list of collections. -/
theorem C18_crossproduct_partial {α : Type} (ss : List (List α)) (h : ss ≠ []) (hne : ∀ s ∈ ss.dropLast, s ≠ []) :
    ∃ res, crossproduct ss [] = .ok res ∧ (∀ x, x ∈ res ↔ Forall₂ (· ∈ ·) x ss) ∧
      ((∀ s ∈ ss, s.Nodup) → res.Nodup) := by
  refine ⟨product ss, ?_, mem_product ss, nodup_product ss⟩
  rw [crossproduct_eq ss [] h hne]
  simp

/-- **C18, negation.** An empty collection before another one makes `crossproduct` fail instead of returning no
combinations. -/
theorem C18_negation_crossproduct : crossproduct [[], [1]] [] = .error .typeError ∧ crossproduct [[1], []] [] = .ok [] := by
  constructor <;> rfl

example : crossproduct [[1, 2], [3], [4, 5]] [] = .ok [[1, 3, 4], [1, 3, 5], [2, 3, 4], [2, 3, 5]] := by rfl

/-- the values an entry allows -/
def Allowed {α : Type} (v : α) : Entry α → Prop
  | .many vs => v ∈ vs
  | .one w => v = w

theorem mem_eraseDups {α : Type} [DecidableEq α] (l : List α) (a : α) : a ∈ l.eraseDups ↔ a ∈ l := by
  exact List.mem_eraseDups

theorem nodup_eraseDups {α : Type} [DecidableEq α] (l : List α) : l.eraseDups.Nodup := by
  generalize hn : l.length = n
  induction n using Nat.strongRecOn generalizing l with
  | _ n ih =>
    cases l with
    | nil => simp
    | cons x xs =>
      rw [List.eraseDups_cons, List.nodup_cons]
      refine ⟨?_, ih _ ?_ _ rfl⟩
      · rw [List.mem_eraseDups]; simp
      · have := List.length_filter_le (fun b => !b == x) xs
        simp only [List.length_cons] at hn
        omega

theorem dictCombRev_spec {κ α : Type} [DecidableEq α] (le : α → α → Bool) : ∀ l : List (κ × Entry α),
    (dictCombRev le l).Nodup ∧
      ∀ d, d ∈ dictCombRev le l ↔ Forall₂ (fun (kv : κ × α) (e : κ × Entry α) => kv.1 = e.1 ∧ Allowed kv.2 e.2) d.reverse l := by
  intro l
  induction l with
  | nil =>
    refine ⟨by simp [dictCombRev], fun d => ?_⟩
    simp [dictCombRev]
  | cons p rest ih =>
    obtain ⟨k, e⟩ := p
    obtain ⟨i1, i2⟩ := ih
    have split : ∀ (d : List (κ × α)) (S : α → Prop), (∃ pre ∈ dictCombRev le rest, ∃ v, S v ∧ pre ++ [(k, v)] = d) ↔
        Forall₂ (fun (kv : κ × α) (q : κ × (α → Prop)) => kv.1 = q.1 ∧ q.2 kv.2) d.reverse
          ((k, S) :: rest.map (fun q => (q.1, fun v => Allowed v q.2))) := by
      intro d S
      constructor
      · rintro ⟨pre, hp, v, hv, rfl⟩
        rw [List.reverse_append]
        refine Forall₂.cons ⟨rfl, hv⟩ ?_
        rw [List.forall₂_map_right_iff]
        exact (i2 pre).1 hp
      · intro h
        cases hx : d.reverse with
        | nil => rw [hx] at h; cases h
        | cons a t =>
          rw [hx] at h
          cases h with
          | cons h1 h2 =>
            rw [List.forall₂_map_right_iff] at h2
            refine ⟨t.reverse, (i2 _).2 (by rwa [List.reverse_reverse]), a.2, h1.2, ?_⟩
            rw [← List.reverse_reverse d, hx]
            have : (k, a.2) = a := Prod.ext h1.1.symm rfl
            simp [this]
    have back : ∀ (d : List (κ × α)), Forall₂ (fun (kv : κ × α) (q : κ × (α → Prop)) => kv.1 = q.1 ∧ q.2 kv.2) d.reverse
          ((k, fun v => Allowed v e) :: rest.map (fun q => (q.1, fun v => Allowed v q.2))) ↔
        Forall₂ (fun (kv : κ × α) (e : κ × Entry α) => kv.1 = e.1 ∧ Allowed kv.2 e.2) d.reverse ((k, e) :: rest) := by
      intro d
      rw [show ((k, fun v => Allowed v e) :: rest.map (fun q => (q.1, fun v => Allowed v q.2)))
        = ((k, e) :: rest).map (fun (q : κ × Entry α) => (q.1, fun v => Allowed v q.2)) from rfl, List.forall₂_map_right_iff]
    cases e with
    | many vs =>
      refine ⟨?_, fun d => ?_⟩
      · have h0 := nodup_flatMap_append (dictCombRev le rest) ((sortedSet le vs).map (fun v => (k, v))) i1
          (((List.mergeSort_perm _ _).nodup_iff.2 (nodup_eraseDups vs)).map (fun a b hab => by simpa using hab))
        simpa [dictCombRev, List.map_map, Function.comp_def] using h0
      · rw [← back d, ← split d]
        simp only [dictCombRev, List.mem_flatMap, List.mem_map, sortedSet, List.mem_mergeSort, List.mem_eraseDups, Allowed]
    | one w =>
      refine ⟨i1.map (fun a b hab => by simpa using hab), fun d => ?_⟩
      rw [← back d, ← split d]
      simp only [dictCombRev, List.mem_map, Allowed]
      simp

/-- **C18, dictCombinations.** The result holds exactly the dictionaries with the keys of the argument and, for each
key, one of the values its entry allows; each once. -/
theorem C18_dictCombinations {κ α : Type} [DecidableEq α] (le : α → α → Bool) (d : List (κ × Entry α)) :
    (dictCombinations le d).Nodup ∧
      ∀ c, c ∈ dictCombinations le d ↔ Forall₂ (fun (kv : κ × α) (e : κ × Entry α) => kv.1 = e.1 ∧ Allowed kv.2 e.2) c d := by
  obtain ⟨h1, h2⟩ := dictCombRev_spec le d.reverse
  refine ⟨h1, fun c => ?_⟩
  unfold dictCombinations
  rw [h2 c, List.forall₂_reverse_iff]

example : [("a", 1), ("b", 5)] ∈ dictCombinations (fun (a b : Nat) => decide (a ≤ b)) [("a", Entry.many [2, 1, 2]), ("b", .one 5)] ∧
    [("a", 2), ("b", 4)] ∉ dictCombinations (fun (a b : Nat) => decide (a ≤ b)) [("a", Entry.many [2, 1, 2]), ("b", .one 5)] := by
  simp [(C18_dictCombinations _ _).2, Allowed]

/-- **C64, decrementAny.** The result holds exactly the tuples that arise by lowering one positive coordinate by one; each once. -/
theorem C64_decrementAny (tup : List Nat) :
    (decrementAny tup).Nodup ∧ ∀ t, t ∈ decrementAny tup ↔ ∃ (i v : Nat), tup[i]? = some (v + 1) ∧ t = tup.set i v := by
  have hset : ∀ (i v : Nat), i < tup.length → tup.take i ++ [v] ++ tup.drop (i + 1) = tup.set i v := by
    intro i v hi
    rw [List.set_eq_take_append_cons_drop, if_pos hi]; simp
  have heq : decrementAny tup = (tup.zipIdx.filter (fun (p : Nat × Nat) => decide (p.1 > 0))).map (fun (p : Nat × Nat) => tup.set p.2 (p.1 - 1)) := by
    unfold decrementAny
    apply List.map_congr_left
    intro p hp
    have := List.mem_zipIdx_iff_getElem?.1 (List.mem_filter.1 hp).1
    exact hset p.2 (p.1 - 1) (List.getElem?_eq_some_iff.1 this).1
  rw [heq]
  refine ⟨?_, fun t => ?_⟩
  · have hnd : (tup.zipIdx.filter (fun (p : Nat × Nat) => decide (p.1 > 0))).Nodup := by
      apply List.Nodup.filter
      apply List.Nodup.of_map Prod.snd
      rw [List.zipIdx_map_snd]
      exact List.nodup_range'
    apply List.Nodup.map_on _ hnd
    intro p hp q hq h
    rw [List.mem_filter, List.mem_zipIdx_iff_getElem?] at hp hq
    have hp0 : 0 < p.1 := by simpa using hp.2
    have hpl := (List.getElem?_eq_some_iff.1 hp.1).1
    by_cases hpq : p.2 = q.2
    · have := hp.1.symm.trans (hpq ▸ hq.1)
      exact Prod.ext (by simpa using this) hpq
    · have h1 := congrArg (fun l : List Nat => l[p.2]?) h
      simp only [List.getElem?_set_self hpl] at h1
      rw [List.getElem?_set_ne (Ne.symm hpq), hp.1] at h1
      simp only [Option.some.injEq] at h1
      omega
  · simp only [List.mem_map, List.mem_filter, List.mem_zipIdx_iff_getElem?, decide_eq_true_eq]
    constructor
    · rintro ⟨⟨v, i⟩, ⟨h1, h2⟩, rfl⟩
      refine ⟨i, v - 1, ?_, rfl⟩
      simp only at h1 h2
      rw [h1]; congr 1; omega
    · rintro ⟨i, v, h1, rfl⟩
      exact ⟨(v + 1, i), ⟨h1, by simp⟩, by simp⟩

example : decrementAny [2, 0, 1] = [[1, 0, 1], [2, 0, 0]] := by decide

end Verif.Props
