import Verif.Model.Utilities
import Mathlib.Data.List.Sort
import Std.Data.String.ToNat
import Mathlib.Algebra.BigOperators.Group.List.Basic
import Mathlib.Algebra.BigOperators.Ring.List
import Mathlib.Algebra.Order.BigOperators.Group.List
import Mathlib.Data.List.Nodup
import Mathlib.Tactic.Linarith
import Mathlib.Tactic.Positivity
import Mathlib.Tactic.FieldSimp
import Mathlib.Tactic.Ring
import Mathlib.Tactic.NormNum
/- Properties of helpers for experiments (C140). -/
namespace Verif.Util
open Verif.DataSet (Err)

namespace Spec
/-- the number of values before the first one that is not above the target, and `longest` if there is none -/
def firstAt {α : Type} [LinearOrder α] (l : List α) (t : α) (longest : Nat) : Nat := (l.findIdx? fun x => decide (x ≤ t)).getD longest

/-- values of python that compare as equal although they are of different types: integers and booleans -/
inductive PyVal
  | int (i : Int)
  | bool (b : Bool)
  deriving DecidableEq

/-- the class of equal values -/
def pyKey : PyVal → Option Int
  | .int i => some i
  | .bool b => some (if b then 1 else 0)

/-- python's `type(x).__name__` -/
def typeName : PyVal → String
  | .int _ => "int"
  | .bool _ => "bool"
end Spec
open Spec

/-! ### memoize -/

theorem lookup_none {K R : Type} [DecidableEq K] (l : List (K × R)) (k : K) (h : l.lookup k = none) : k ∉ l.map (·.1) := by
  induction l with
  | nil => simp
  | cons p l ih =>
    obtain ⟨k', r⟩ := p
    rw [List.lookup_cons] at h
    by_cases hk : k = k'
    · subst hk; simp at h
    · have : (k == k') = false := by simp [hk]
      rw [this] at h
      simp only [List.map_cons, List.mem_cons, not_or]
      exact ⟨hk, ih h⟩

theorem lookup_some {K R : Type} [DecidableEq K] (l : List (K × R)) (k : K) (r : R) (h : l.lookup k = some r) : (k, r) ∈ l := by
  induction l with
  | nil => simp at h
  | cons p l ih =>
    obtain ⟨k', r'⟩ := p
    rw [List.lookup_cons] at h
    by_cases hk : k = k'
    · subst hk; simp at h; simp [h]
    · have : (k == k') = false := by simp [hk]
      rw [this] at h
      exact List.mem_cons_of_mem _ (ih h)

/-- a function that is pure, but whose evaluations are written to a list -/
def logged {A R E : Type} (f : A → R) (a : A) (log : List A) : Except E (R × List A) := .ok (f a, log ++ [a])

theorem memo_inv {A K R E : Type} [DecidableEq K] (key : A → Option K) (e : E) (f : A → R) (hkey : ∀ a b, key a = key b → f a = f b) (as : List A) (hh : ∀ a ∈ as, key a ≠ none) :
    ∀ (cache : List (K × R)) (log : List A), (∀ p ∈ cache, ∃ a, key a = some p.1 ∧ f a = p.2) → (cache.map fun p => some p.1).reverse = log.map key → (log.map key).Nodup →
      ∃ cache' log', memoCalls key e (logged f) as (cache, log) = .ok (as.map f, cache', log ++ log') ∧ log'.Sublist as ∧ ((log ++ log').map key).Nodup ∧ ∀ a ∈ as, ∃ b ∈ log ++ log', key b = key a := by
  induction as with
  | nil => exact fun cache log _ _ h3 => ⟨cache, [], by simp [memoCalls], by simp, by simpa using h3, by simp⟩
  | cons a as ih =>
    intro cache log h1 h2 h3
    obtain ⟨k, hk⟩ := Option.ne_none_iff_exists'.mp (hh a (by simp))
    cases hl : cache.lookup k with
    | some r =>
      obtain ⟨b, hb, hr⟩ := h1 _ (lookup_some _ _ _ hl)
      have hmem : some k ∈ log.map key := by
        rw [← h2, List.mem_reverse]; exact List.mem_map.mpr ⟨_, lookup_some _ _ _ hl, rfl⟩
      obtain ⟨c, hc, hck⟩ := List.mem_map.mp hmem
      obtain ⟨cache', log', i1, i2, i3, i4⟩ := ih (fun x hx => hh x (by simp [hx])) cache log h1 h2 h3
      refine ⟨cache', log', ?_, i2.cons _, i3, ?_⟩
      · have : f a = r := by (have e1 : f b = r := hr); rw [← e1]; exact hkey _ _ (by rw [hk, hb])
        simp [memoCalls, memoCall, hk, hl, i1, bind, Except.bind, pure, Except.pure, this]
      · intro x hx
        rcases List.mem_cons.mp hx with rfl | hx
        · exact ⟨c, by simp [hc], by rw [hck, hk]⟩
        · exact i4 x hx
    | none =>
      have hnk : some k ∉ log.map key := by
        rw [← h2, List.mem_reverse]
        intro hm
        obtain ⟨p, hp, he⟩ := List.mem_map.mp hm
        exact lookup_none _ _ hl (List.mem_map.mpr ⟨p, hp, by simpa using he⟩)
      obtain ⟨cache', log', i1, i2, i3, i4⟩ := ih (fun x hx => hh x (by simp [hx])) ((k, f a) :: cache) (log ++ [a])
        (by intro p hp; rcases List.mem_cons.mp hp with rfl | hp; exacts [⟨a, hk, rfl⟩, h1 p hp]) (by simp [h2, hk])
        (by rw [List.map_append, List.map_singleton, hk]; exact List.nodup_append.mpr ⟨h3, by simp, by simpa using fun x hx => fun he => hnk (List.mem_map.mpr ⟨x, hx, he⟩)⟩)
      rw [List.append_assoc] at i1 i3 i4
      refine ⟨cache', [a] ++ log', ?_, i2.cons_cons a, i3, ?_⟩
      · simp only [memoCalls, memoCall, hk, hl, logged, bind, Except.bind, pure, Except.pure, i1, List.map_cons]
      · intro x hx
        rcases List.mem_cons.mp hx with rfl | hx
        · exact ⟨x, by simp, rfl⟩
        · exact i4 x hx

/-! ### avgFoundAfter -/

theorem findFrom_eq {α : Type} [LinearOrder α] (l : List α) (t : α) (k longest : Nat) (h : ∀ i, i < k → ∀ x, l[i]? = some x → t < x) :
    (findFrom l t k).getD longest = firstAt l t longest := by
  unfold findFrom firstAt
  cases hf : l.findIdx? fun x => decide (x ≤ t) with
  | none =>
    rw [List.findIdx?_eq_none_iff] at hf
    have : (List.range' k (l.length - k)).find? (hit l t) = none := by
      rw [List.find?_eq_none]
      intro i _
      unfold hit
      cases hi : l[i]? with
      | none => simp
      | some x => have := hf x (List.mem_of_getElem? hi); simpa using this
    rw [this]
  | some i =>
    obtain ⟨hi, h1, h2⟩ := List.findIdx?_eq_some_iff_getElem.mp hf
    have hki : k ≤ i := by
      by_contra hc
      have := h i (by omega) _ (List.getElem?_eq_getElem hi)
      simp at h1
      exact absurd h1 (not_le.mpr this)
    have : (List.range' k (l.length - k)).find? (hit l t) = some i := by
      rw [List.find?_range'_eq_some]
      refine ⟨by simpa [hit, List.getElem?_eq_getElem hi] using h1, by rw [List.mem_range'_1]; omega, fun j _ hj => ?_⟩
      have := h2 j hj
      simp [hit, List.getElem?_eq_getElem (show j < l.length by omega)] at this ⊢
      exact this
    rw [this]

theorem foundStep_eq {α : Type} [LinearOrder α] (longest : Nat) (l : List α) (lres : List Nat) (t : α) (h : ∀ i, i < lres.headD 0 → ∀ x, l[i]? = some x → t < x) :
    foundStep longest l lres t = firstAt l t longest :: lres := by
  have := findFrom_eq l t (lres.headD 0) longest h
  unfold foundStep
  cases hf : findFrom l t (lres.headD 0) <;> rw [hf] at this <;> exact congrArg (· :: lres) this

theorem firstAt_above {α : Type} [LinearOrder α] (l : List α) (t : α) (longest : Nat) (i : Nat) (hi : i < firstAt l t longest) (x : α) (hx : l[i]? = some x) : t < x := by
  unfold firstAt at hi
  cases hf : l.findIdx? fun x => decide (x ≤ t) with
  | none =>
    rw [List.findIdx?_eq_none_iff] at hf
    simpa using hf x (List.mem_of_getElem? hx)
  | some j =>
    obtain ⟨hj, h1, h2⟩ := List.findIdx?_eq_some_iff_getElem.mp hf
    rw [hf] at hi
    have := h2 i hi
    obtain ⟨hlt, rfl⟩ := List.getElem?_eq_some_iff.mp hx
    simpa using this

theorem found_fold {α : Type} [LinearOrder α] (longest : Nat) (l : List α) (ts : List α) (hts : ts.Pairwise (· ≥ ·)) :
    ∀ lres : List Nat, (∀ t ∈ ts, ∀ i, i < lres.headD 0 → ∀ x, l[i]? = some x → t < x) → ts.foldl (foundStep longest l) lres = (ts.map fun t => firstAt l t longest).reverse ++ lres := by
  induction ts with
  | nil => simp
  | cons t ts ih =>
    intro lres h
    obtain ⟨h1, h2⟩ := List.pairwise_cons.mp hts
    rw [List.foldl_cons, foundStep_eq _ _ _ _ (h t (by simp)), ih h2]
    · simp
    · intro t' ht' i hi x hx
      exact lt_of_le_of_lt (h1 t' ht') (firstAt_above l t longest i hi x hx)

/-! ### weightedUtest -/

/-- the share of one pair -/
noncomputable def uShare (x y : ℝ) : ℝ := if x = y then 0.5 else if x > y then 1 else 0

theorem uShare_symm (x y : ℝ) : uShare x y + uShare y x = 1 := by
  unfold uShare
  rcases lt_trichotomy x y with h | h | h
  · simp [h, h.ne, h.ne', h.le, not_lt.mpr h.le]
  · subst h; norm_num
  · simp [h, h.ne, h.ne', h.le, not_lt.mpr h.le]

theorem utestU_eq (g1 g2 : List (ℝ × ℝ)) : utestU g1 g2 = (g1.map fun p => (g2.map fun q => uShare p.1 q.1 * p.2 * q.2).sum).sum := by
  unfold utestU uShare
  congr 1; refine List.map_congr_left fun p _ => ?_
  congr 1; refine List.map_congr_left fun q _ => ?_
  split_ifs <;> ring

theorem sum_swap {α β : Type} (f : α → β → ℝ) (l : List α) (m : List β) : (l.map fun a => (m.map fun b => f a b).sum).sum = (m.map fun b => (l.map fun a => f a b).sum).sum := by
  induction l with
  | nil => simp
  | cons a l ih => simp only [List.map_cons, List.sum_cons, ih, List.sum_map_add]

theorem sum_prod (g1 g2 : List (ℝ × ℝ)) : (g1.map fun p => (g2.map fun q => p.2 * q.2).sum).sum = (g1.map (·.2)).sum * (g2.map (·.2)).sum := by
  induction g1 with
  | nil => simp
  | cons p g ih => rw [List.map_cons, List.sum_cons, ih, List.map_cons, List.sum_cons, add_mul, List.sum_map_mul_left]

theorem utestU_symm (g1 g2 : List (ℝ × ℝ)) : utestU g1 g2 + utestU g2 g1 = (g1.map (·.2)).sum * (g2.map (·.2)).sum := by
  rw [utestU_eq, utestU_eq, sum_swap _ g2 g1, ← List.sum_map_add, ← sum_prod]
  congr 1; refine List.map_congr_left fun p _ => ?_
  rw [← List.sum_map_add]
  congr 1; refine List.map_congr_left fun q _ => ?_
  rw [← one_mul (p.2 * q.2), ← uShare_symm p.1 q.1]; ring

theorem sum_pos_list (g : List (ℝ × ℝ)) (h : g ≠ []) (hw : ∀ p ∈ g, 0 < p.2) : 0 < (g.map (·.2)).sum := by
  refine List.sum_pos _ (fun x hx => ?_) (by simpa using h)
  obtain ⟨p, hp, rfl⟩ := List.mem_map.mp hx
  exact hw p hp

/-! ### names -/

theorem generateName_inj (c c' : List Char) (i j : Nat) (h : generateName c i = generateName c' j) : i = j := by
  unfold generateName at h
  have hd : ∀ n : Nat, '-' ∉ (Nat.repr n).toList := fun n hm => by
    rw [Nat.toList_repr] at hm
    simpa using Nat.isDigit_of_mem_toDigits (by decide) (by decide) hm
  have h' := congrArg List.reverse h
  simp only [List.reverse_append, List.reverse_cons, List.append_assoc, List.singleton_append] at h'
  have key : ∀ (l m x y : List Char), '-' ∉ l → '-' ∉ m → l ++ '-' :: x = m ++ '-' :: y → l = m := by
    intro l
    induction l with
    | nil =>
      intro m x y _ hm he
      cases m with
      | nil => rfl
      | cons b m => simp at he; exact absurd he.1 (by rintro rfl; simp at hm)
    | cons a l ih =>
      intro m x y hl hm he
      cases m with
      | nil => simp at he; exact absurd he.1 (by rintro rfl; simp at hl)
      | cons b m =>
        simp only [List.cons_append, List.cons.injEq] at he
        simp only [List.mem_cons, not_or] at hl hm
        rw [he.1, ih m x y hl.2 hm.2 he.2]
  have := key _ _ _ _ (by simpa using hd i) (by simpa using hd j) h'
  exact Nat.repr_injective (String.toList_inj.1 (List.reverse_injective this))

/-- all names were generated, from different numbers below the counter -/
def NamesInv (s : Names) : Prop := ∃ ids : List (Option Nat), ids.length = s.objs.length ∧ (∀ i n : Nat, ids[i]? = some (some n) → n < s.next) ∧
  (∀ (i : Nat) (o : Obj), s.objs[i]? = some o → ∃ x : Option Nat, ids[i]? = some x ∧ o.name = x.map (generateName o.cls)) ∧ ∀ i j n : Nat, ids[i]? = some (some n) → ids[j]? = some (some n) → i = j

theorem namesInv_step (s : Names) (h : NamesInv s) (op : NameOp) (hop : ∀ i, (∀ n, op ≠ .rename i n) ∧ op ≠ .copy i) : NamesInv (nameStep s op) := by
  obtain ⟨ids, h1, h2, h3, h4⟩ := h
  cases op with
  | create cls =>
    refine ⟨ids ++ [none], by simp [nameStep, h1], ?_, ?_, ?_⟩
    · intro i n hi
      rw [List.getElem?_append] at hi
      split at hi
      · exact h2 i n hi
      · cases hk : i - ids.length <;> simp [hk] at hi
    · intro i o ho
      simp only [nameStep, List.getElem?_append] at ho
      rw [List.getElem?_append, h1]
      split at ho
      · rename_i hlt; rw [if_pos hlt]; exact h3 i o ho
      · rename_i hlt; rw [if_neg hlt]
        cases hk : i - s.objs.length <;> simp [hk] at ho
        subst ho; exact ⟨none, rfl, rfl⟩
    · intro i j n hi hj
      have key : ∀ i : Nat, (ids ++ [none])[i]? = some (some n) → ids[i]? = some (some n) := by
        intro i hi
        rw [List.getElem?_append] at hi
        split at hi
        · exact hi
        · cases hk : i - ids.length <;> simp [hk] at hi
      exact h4 i j n (key i hi) (key j hj)
  | read i =>
    simp only [nameStep]
    split
    · rename_i cls ho
      have hlt : i < ids.length := by rw [h1]; exact (List.getElem?_eq_some_iff.mp ho).1
      refine ⟨ids.set i (some s.next), by simp [h1], ?_, ?_, ?_⟩
      · intro j n hj
        rw [List.getElem?_set] at hj
        split at hj
        · simp [hlt] at hj; subst hj; exact Nat.lt_succ_self _
        · exact Nat.lt_succ_of_lt (h2 j n hj)
      · intro j o hj
        simp only [List.getElem?_set] at hj ⊢
        split at hj
        · rename_i he; subst he
          rw [if_pos rfl, if_pos hlt]
          rw [if_pos (h1 ▸ hlt)] at hj
          simp only [Option.some.injEq] at hj; subst hj
          exact ⟨some s.next, rfl, rfl⟩
        · rename_i he; rw [if_neg he]; exact h3 j o hj
      · intro j k n hj hk
        rw [List.getElem?_set] at hj hk
        split at hj <;> split at hk
        · omega
        · rename_i he _; simp [hlt] at hj; subst hj; exact absurd (h2 k _ hk) (lt_irrefl _)
        · rename_i he; simp [hlt] at hk; subst hk; exact absurd (h2 j _ hj) (lt_irrefl _)
        · exact h4 j k n hj hk
    · exact ⟨ids, h1, h2, h3, h4⟩
  | rename i n => exact absurd rfl ((hop i).1 n)
  | copy i => exact absurd rfl (hop i).2

end Verif.Util

namespace Verif.Props
open Verif.Util Verif.Util.Spec
open Verif.DataSet (Err)

/-- **C140, memoized functions.** Calls of a memoized function, if its results do not depend on the state and are the same for arguments that compare as equal, return what the function returns; the function itself is evaluated
for some of the calls only, in the same order, once for every group of equal arguments. -/
theorem C140_memoize {A K R E : Type} [DecidableEq K] (key : A → Option K) (e : E) (f : A → R) (hkey : ∀ a b, key a = key b → f a = f b) (as : List A) (hh : ∀ a ∈ as, key a ≠ none) :
    ∃ cache log, memoCalls key e (fun a (log : List A) => .ok (f a, log ++ [a])) as ([], []) = .ok (as.map f, cache, log) ∧ log.Sublist as ∧ (log.map key).Nodup ∧ ∀ a ∈ as, ∃ b ∈ log, key b = key a := by
  have := memo_inv key e f hkey as hh [] [] (by simp) (by simp) (by simp)
  simp only [List.nil_append] at this
  exact this

/-- **C140 violated: equal arguments of different types.** A memoized function can return something else than the function: `1` and `True` compare as equal. -/
theorem C140_negation_equal : ∃ st, memoCalls (E := Err) pyKey .typeError (fun a (_ : Unit) => .ok (typeName a, ())) [.int 1, .bool true] ([], ()) = .ok (["int", "int"], st) ∧
    [PyVal.int 1, .bool true].map typeName = ["int", "bool"] := ⟨_, rfl, rfl⟩

/-- **C140 violated: lists as arguments.** According to its comment the decorator provides for dictionaries and lists, but every call with one of them among the arguments fails (`TypeError`), whatever the function does. -/
theorem C140_negation_unhashable {S A K R E : Type} [DecidableEq K] (key : A → Option K) (e : E) (func : A → S → Except E (R × S)) (a : A) (h : key a = none) (st : List (K × R) × S) :
    memoCall key e func a st = .error e := by simp [memoCall, h]

/-- **C140, percentage of errors.** For two lists of the same length, not empty, it is the number of positions with different values, in percent; it is 0 exactly for equal lists. -/
theorem C140_percent {α : Type} [DecidableEq α] (out target : List α) (h : out.length = target.length) (h0 : out ≠ []) :
    ∃ p, percentError out target = .ok p ∧ p * out.length / 100 = ((List.range out.length).filter fun i => decide (out[i]? ≠ target[i]?)).length ∧ 0 ≤ p ∧ p ≤ 100 ∧ (p = 0 ↔ out = target) := by
  have hl : out.length ≠ 0 := by simpa using h0
  have hq : (0 : ℚ) < out.length := by exact_mod_cast Nat.pos_of_ne_zero hl
  have hc : ∀ (l m : List α), l.length = m.length → (List.zipWith (fun a b => decide (a ≠ b)) l m).count true = ((List.range l.length).filter fun i => decide (l[i]? ≠ m[i]?)).length ∧
      ((List.zipWith (fun a b => decide (a ≠ b)) l m).count true = 0 ↔ l = m) ∧ (List.zipWith (fun a b => decide (a ≠ b)) l m).count true ≤ l.length := by
    intro l
    induction l with
    | nil => intro m hm; cases m <;> simp at hm ⊢
    | cons a l ih =>
      intro m hm
      cases m with
      | nil => simp at hm
      | cons b m =>
        obtain ⟨i1, i2, i3⟩ := ih m (by simpa using hm)
        have hf : ((List.range (a :: l).length).filter fun i => decide ((a :: l)[i]? ≠ (b :: m)[i]?)).length = ((List.range l.length).filter fun i => decide (l[i]? ≠ m[i]?)).length + if a ≠ b then 1 else 0 := by
          rw [List.length_cons, List.range_succ_eq_map, List.filter_cons, List.filter_map, apply_ite List.length, List.length_cons, List.length_map]
          by_cases hab : a = b <;> simp [hab, Function.comp_def]
        rw [hf, List.zipWith_cons_cons, List.count_cons]
        by_cases hab : a = b
        · subst hab; simp; simp at i1 i2 i3; refine ⟨i1, i2, by omega⟩
        · simp [hab]; simp at i1 i3; exact ⟨i1, i3⟩
  obtain ⟨h1, h2, h3⟩ := hc out target h
  refine ⟨_, by simp only [percentError, h, if_true, bind, Except.bind, pure, Except.pure, h ▸ hl, if_false]; rfl, ?_, ?_, ?_, ?_⟩
  · rw [← h1, ← h]; field_simp
  · positivity
  · rw [div_le_iff₀ (h ▸ hq)]
    have : ((List.zipWith (fun a b => decide (a ≠ b)) out target).count true : ℚ) ≤ target.length := by rw [← h]; exact_mod_cast h3
    linarith
  · rw [← h2, div_eq_zero_iff]
    constructor
    · rintro (h'' | h'')
      · simpa using h''
      · rw [← h, Nat.cast_eq_zero] at h''; exact absurd h'' hl
    · intro h; left; rw [h]; simp

/-- **C140 violated: above 100 percent.** A single output compared with two targets gives up to 200 percent. -/
theorem C140_negation_percent : percentError [0] [1, 1] = .ok 200 := by decide +kernel

/-- **C140, averages of first encounters.** For decreasing targets and at least one list the result has one entry for each target: the average over all lists of the number of values before the first one that is not above the target (if there is
none, the length of the longest list), times the batch size. -/
theorem C140_found {α : Type} [LinearOrder α] (targets : List α) (ht : targets.Pairwise (· ≥ ·)) (lists : List (List α)) (hl : lists ≠ []) (batchSize : ℚ) :
    ∃ longest, (∃ l ∈ lists, l.length = longest) ∧ (∀ l ∈ lists, l.length ≤ longest) ∧
      avgFoundAfter targets lists batchSize = .ok (targets.map fun t => (lists.map fun l => (firstAt l t longest : ℚ)).sum / lists.length * batchSize) := by
  have hmax : ∀ (ls : List Nat) (x : Nat), (ls.foldl max x ∈ x :: ls) ∧ ∀ y ∈ x :: ls, y ≤ ls.foldl max x := by
    intro ls
    induction ls with
    | nil => simp
    | cons z ls ih =>
      intro x
      obtain ⟨h1, h2⟩ := ih (max x z)
      rw [List.foldl_cons]
      refine ⟨?_, fun y hy => ?_⟩
      · rcases List.mem_cons.mp h1 with h | h
        · rw [h]; rcases max_choice x z with h | h <;> simp [h]
        · simp [h]
      · have h3 := h2 (max x z) (by simp)
        rcases List.mem_cons.mp hy with rfl | hy
        · exact le_trans (le_max_left _ _) h3
        rcases List.mem_cons.mp hy with rfl | hy
        · exact le_trans (le_max_right _ _) h3
        · exact h2 y (by simp [hy])
  obtain ⟨h1, h2⟩ := hmax (lists.map List.length) 0
  refine ⟨(lists.map List.length).foldl max 0, ?_, fun l hx => h2 _ (by simpa using Or.inr ⟨l, hx, rfl⟩), ?_⟩
  · rcases List.mem_cons.mp h1 with h | h
    · obtain ⟨l, ls, rfl⟩ := List.exists_cons_of_ne_nil hl
      refine ⟨l, by simp, ?_⟩
      have := h2 l.length (by simp)
      omega
    · obtain ⟨l, hx, he⟩ := List.mem_map.mp h
      exact ⟨l, hx, he⟩
  · unfold avgFoundAfter
    rw [if_neg (by simpa using hl)]
    generalize (lists.map List.length).foldl max 0 = longest
    simp only [List.map_map, Function.comp_def]
    congr 1
    refine List.ext_getElem (by simp) fun j hj hj' => ?_
    simp only [List.length_map, List.length_range] at hj
    simp only [List.getElem_map, List.getElem_range]
    congr 2
    congr 1
    refine List.map_congr_left fun l _ => ?_
    rw [found_fold _ l targets ht [0] (by simp)]
    simp [List.getD_eq_getElem?_getD, List.getElem?_eq_getElem hj]

/-- **C140, weights in the U-test.** One entry with weight `a + b` is equivalent to two with weights `a` and `b`, in both groups; exchanging the groups turns the confidence around. `cdf` is any function with the symmetry of the distribution function. -/
theorem C140_utest (cdf : ℝ → ℝ) (hs : ∀ z, cdf z + cdf (-z) = 1) (l r g : List (ℝ × ℝ)) (x a b : ℝ) :
    weightedUtest cdf (l ++ (x, a + b) :: r) g = weightedUtest cdf (l ++ (x, a) :: (x, b) :: r) g ∧
    weightedUtest cdf g (l ++ (x, a + b) :: r) = weightedUtest cdf g (l ++ (x, a) :: (x, b) :: r) ∧
    weightedUtest cdf l g + weightedUtest cdf g l = 1 := by
  have h1 : ((l ++ (x, a + b) :: r).map (·.2)).sum = ((l ++ (x, a) :: (x, b) :: r).map (·.2)).sum := by simp; ring
  have h2 : utestU (l ++ (x, a + b) :: r) g = utestU (l ++ (x, a) :: (x, b) :: r) g := by
    simp only [utestU_eq, List.map_append, List.map_cons, List.sum_append, List.sum_cons]
    rw [← add_assoc (List.sum (List.map _ g)), ← List.sum_map_add]
    congr 3
    refine List.map_congr_left fun q _ => by ring
  have h3 : utestU g (l ++ (x, a + b) :: r) = utestU g (l ++ (x, a) :: (x, b) :: r) := by
    have e1 := utestU_symm g (l ++ (x, a + b) :: r)
    have e2 := utestU_symm g (l ++ (x, a) :: (x, b) :: r)
    rw [h1] at e1; linarith
  refine ⟨?_, ?_, ?_⟩
  · simp only [weightedUtest, h1, h2]
  · simp only [weightedUtest, h1, h3]
  · simp only [weightedUtest]
    have e := utestU_symm l g
    generalize (l.map (·.2)).sum = n1 at *
    generalize (g.map (·.2)).sum = n2 at *
    have : (utestU g l - n2 * n1 / 2) / √(n2 * n1 * (n2 + n1 + 1) / 12) = -((utestU l g - n1 * n2 / 2) / √(n1 * n2 * (n1 + n2 + 1) / 12)) := by
      rw [show n2 * n1 * (n2 + n1 + 1) / 12 = n1 * n2 * (n1 + n2 + 1) / 12 by ring, ← neg_div]
      congr 1; linarith
    rw [this, hs]

/-- **C140 violated: direction of the U-test.** It is to return the confidence that the values of the second group are higher, but if all of them are, the result is below 1/2 (and above it if all of them are lower). -/
theorem C140_negation_utest (cdf : ℝ → ℝ) (hs : ∀ z, cdf z + cdf (-z) = 1) (hm : StrictMono cdf) (g1 g2 : List (ℝ × ℝ)) (h1 : g1 ≠ []) (h2 : g2 ≠ []) (hw1 : ∀ p ∈ g1, 0 < p.2) (hw2 : ∀ p ∈ g2, 0 < p.2)
    (h : ∀ p ∈ g1, ∀ q ∈ g2, p.1 < q.1) : weightedUtest cdf g1 g2 < 1 / 2 ∧ 1 / 2 < weightedUtest cdf g2 g1 := by
  have p1 := sum_pos_list g1 h1 hw1
  have p2 := sum_pos_list g2 h2 hw2
  have hu : utestU g1 g2 = 0 := by
    unfold utestU
    refine List.sum_eq_zero fun x hx => ?_
    obtain ⟨p, hp, rfl⟩ := List.mem_map.mp hx
    refine List.sum_eq_zero fun y hy => ?_
    obtain ⟨q, hq, rfl⟩ := List.mem_map.mp hy
    have := h p hp q hq
    rw [if_neg this.ne, if_neg (not_lt.mpr this.le)]
  have hz : cdf 0 = 1 / 2 := by have := hs 0; rw [neg_zero] at this; linarith
  have hlt : weightedUtest cdf g1 g2 < 1 / 2 := by
    rw [← hz]
    refine hm ?_
    rw [hu]
    refine div_neg_of_neg_of_pos ?_ (Real.sqrt_pos.mpr (by positivity))
    have := mul_pos p1 p2
    linarith
  have hsum := (C140_utest cdf hs g1 [] g2 0 0 0).2.2
  exact ⟨hlt, by linarith⟩

/-- **C140, selections.** A dictionary matches a selection exactly if for each key of the selection that it has (with `require_existence`: for each key of the selection) its value is the selected one, or among the selected ones. -/
theorem C140_matching {K V : Type} [DecidableEq K] [DecidableEq V] (d : List (K × V)) (require : Bool) (sel : List (K × Sel V)) :
    matchingDict d require sel = true ↔ ∀ k v, (k, v) ∈ sel → match d.lookup k with
      | some x => (match v with | .many vs => x ∈ vs | .one y => x = y)
      | none => require = false := by
  induction sel with
  | nil => simp [matchingDict]
  | cons p sel ih =>
    obtain ⟨k, v⟩ := p
    have hsplit : ∀ P : K → Sel V → Prop, (∀ k' v', (k', v') ∈ (k, v) :: sel → P k' v') ↔ P k v ∧ ∀ k' v', (k', v') ∈ sel → P k' v' := by
      intro P; constructor
      · exact fun h => ⟨h k v (by simp), fun k' v' hm => h k' v' (by simp [hm])⟩
      · rintro ⟨h1, h2⟩ k' v' hm
        rcases List.mem_cons.mp hm with he | hm
        · cases he; exact h1
        · exact h2 k' v' hm
    rw [hsplit, ← ih]
    cases hl : d.lookup k with
    | none => cases require <;> simp [matchingDict, hl]
    | some x =>
      cases v with
      | many vs => by_cases hx : x ∈ vs <;> simp [matchingDict, hl, hx]
      | one y => by_cases hx : x = y <;> simp [matchingDict, hl, hx]

/-- **C140, parts of dictionaries.** The two parts for a list of keys are those of the dictionary whose keys are in the list and the others: they are disjoint and together they are the dictionary. -/
theorem C140_sub {K V : Type} [DecidableEq K] (d : List (K × V)) (allowed : List K) :
    (∀ p, p ∈ subDict d allowed ↔ p ∈ d ∧ p.1 ∈ allowed) ∧ (∀ p, p ∈ subDict d allowed true ↔ p ∈ d ∧ p.1 ∉ allowed) ∧ (subDict d allowed ++ subDict d allowed true).Perm d := by
  refine ⟨by simp [subDict], by simp [subDict], ?_⟩
  unfold subDict
  simpa using List.filter_append_perm (fun p : K × V => decide (p.1 ∈ allowed)) d

/-- **C140, names.** Objects that got their names automatically have different names, whatever their classes are and in whatever order they were created and their names were read. -/
theorem C140_names (ops : List NameOp) (hops : ∀ op ∈ ops, ∀ i, (∀ n, op ≠ .rename i n) ∧ op ≠ .copy i) (i j : Nat) (hij : i ≠ j) (o o' : Obj) :
    let s := ops.foldl nameStep ⟨[], 0⟩
    s.objs[i]? = some o → s.objs[j]? = some o' → ∀ n, o.name = some n → o'.name ≠ some n := by
  intro s ho ho' n hn hn'
  have hinv : NamesInv s := by
    have key : ∀ (ops : List NameOp) (t : Names), NamesInv t → (∀ op ∈ ops, ∀ i, (∀ n, op ≠ .rename i n) ∧ op ≠ .copy i) → NamesInv (ops.foldl nameStep t) := by
      intro ops
      induction ops with
      | nil => exact fun t h _ => h
      | cons op ops ih => exact fun t h h' => ih _ (namesInv_step t h op (h' op (by simp))) fun x hx => h' x (by simp [hx])
    exact key ops _ ⟨[], rfl, by simp, by simp, by simp⟩ hops
  obtain ⟨ids, h1, h2, h3, h4⟩ := hinv
  obtain ⟨x, hx, hxn⟩ := h3 i o ho
  obtain ⟨y, hy, hyn⟩ := h3 j o' ho'
  rw [hn] at hxn; rw [hn'] at hyn
  cases x with
  | none => simp at hxn
  | some a =>
    cases y with
    | none => simp at hyn
    | some b =>
      simp only [Option.map_some, Option.some.injEq] at hxn hyn
      have := generateName_inj _ _ _ _ (hxn.symm.trans hyn)
      subst this
      exact hij (h4 i j a hx hy)

/-- **C140 violated: names.** The names are not unique if objects are copied, or if a name that was given by the user is generated later. -/
theorem C140_negation_names :
    ([.create ['A'], .read 0, .copy 0].foldl nameStep ⟨[], 0⟩).objs = [⟨['A'], some ['A', '-', '0']⟩, ⟨['A'], some ['A', '-', '0']⟩] ∧
    ([.create ['A'], .create ['A'], .rename 0 ['A', '-', '0'], .read 1].foldl nameStep ⟨[], 0⟩).objs = [⟨['A'], some ['A', '-', '0']⟩, ⟨['A'], some ['A', '-', '0']⟩] := by
  constructor <;> decide +kernel

/-- the hypotheses are met: a pure function of integers, decreasing targets, groups with weights, and a history of objects -/
example : (∃ cache, memoCalls (E := Err) (fun a : Int => some a) .typeError (fun a (log : List Int) => .ok (a * a, log ++ [a])) [2, 3, 2] ([], []) = .ok ([4, 9, 4], cache, [2, 3])) ∧
    [(3 : Int), 1].Pairwise (· ≥ ·) ∧ avgFoundAfter [(3 : Int), 1] [[5, 3, 2], [1]] = .ok [1 / 2, 3 / 2] ∧
    (([.create ['A'], .create ['B'], .read 1, .read 0].foldl nameStep ⟨[], 0⟩).objs.map (·.name)) = [some ['A', '-', '1'], some ['B', '-', '0']] :=
  ⟨⟨_, rfl⟩, by decide, by decide +kernel, by decide +kernel⟩

end Verif.Props
