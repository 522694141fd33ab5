import Verif.Model.SparseData
import Mathlib.Data.List.Perm.Basic
import Mathlib.Data.List.Zip
import Mathlib.Data.Int.Order.Basic
import Mathlib.Tactic.Linarith
/-
C130: data files in the sparse LIBSVM format and raw files.
-/
namespace Verif.Sparse
open Verif.DataSet (Err)

variable {K : Type} [Zero K]

/-! ### specification -/

/-- the value that a line gives to feature number `k` (numbered from 1): 0 if it is not mentioned -/
def valueOf (feats : List (Int × K)) (k : Int) : K := ((feats.find? fun p => decide (p.1 = k)).map Prod.snd).getD 0

/-- the features are numbered from 1 and listed in increasing order, as the format demands -/
def Increasing (feats : List (Int × K)) : Prop := feats.Pairwise (fun a b => a.1 < b.1) ∧ ∀ p ∈ feats, 1 ≤ p.1

/-- the features of a vector that are not zero -/
def encode [DecidableEq K] (v : List K) : List (Int × K) := (v.zipIdx.filter fun p => decide (p.1 ≠ 0)).map fun p => ((p.2 : Int) + 1, p.1)

/-! ### lemmas -/

theorem valueOf_cons (idx : Int) (val : K) (r : List (Int × K)) (k : Int) : valueOf ((idx, val) :: r) k = if idx = k then val else valueOf r k := by
  unfold valueOf
  by_cases h : idx = k <;> simp [List.find?_cons, h]

theorem valueOf_zero (feats : List (Int × K)) (k : Int) (h : ∀ p ∈ feats, p.1 ≠ k) : valueOf feats k = 0 := by
  unfold valueOf
  rw [List.find?_eq_none.2 (by simpa using fun a b hab => h (a, b) hab)]
  rfl

theorem expand_spec (l : List (Int × K)) : ∀ next : Int, l.Pairwise (fun a b => a.1 < b.1) → (∀ p ∈ l, next ≤ p.1) →
    ((expand next l).1.length : Int) = (expand next l).2 - next ∧ next ≤ (expand next l).2 ∧ (∀ p ∈ l, p.1 < (expand next l).2) ∧
    ((expand next l).2 = match l.getLast? with | some p => p.1 + 1 | none => next) ∧
    ∀ k : Nat, (expand next l).1.getD k 0 = valueOf l (next + k) := by
  induction l with
  | nil => intro next _ _; simp [expand, valueOf]
  | cons a r ih =>
    obtain ⟨idx, val⟩ := a
    intro next hp hn
    obtain ⟨hp1, hp2⟩ := List.pairwise_cons.1 hp
    obtain ⟨i1, i2, i3, i4, i5⟩ := ih (idx + 1) hp2 (fun p hpr => hp1 p hpr)
    have hidx : next ≤ idx := hn _ List.mem_cons_self
    have e1 : (expand next ((idx, val) :: r)).1 = List.replicate (idx - next).toNat 0 ++ val :: (expand (idx + 1) r).1 := rfl
    have e2 : (expand next ((idx, val) :: r)).2 = (expand (idx + 1) r).2 := rfl
    refine ⟨?_, by rw [e2]; omega, ?_, ?_, ?_⟩
    · rw [e1, e2]
      simp only [List.length_append, List.length_replicate, List.length_cons]
      push_cast
      omega
    · intro p hpm
      rw [e2]
      rcases List.mem_cons.1 hpm with rfl | h
      · simp only; omega
      · exact i3 p h
    · rw [e2, i4]
      cases r with
      | nil => simp
      | cons b r =>
        rw [List.getLast?_cons_cons]
        cases hc : (b :: r).getLast? with
        | none => simp at hc
        | some p => rfl
    · intro k
      rw [e1, valueOf_cons, List.getD_eq_getElem?_getD]
      rcases lt_trichotomy (k : Int) (idx - next) with h | h | h
      · rw [List.getElem?_append_left (by simp; omega), List.getElem?_replicate, if_pos (by omega), if_neg (by omega)]
        exact (valueOf_zero _ _ fun p hpr => by have := hp1 p hpr; simp only at this; omega).symm
      · rw [List.getElem?_append_right (by simp; omega), if_pos (by omega)]
        have : k - (List.replicate (idx - next).toNat (0 : K)).length = 0 := by simp; omega
        rw [this]; rfl
      · rw [List.getElem?_append_right (by simp; omega), if_neg (by omega)]
        obtain ⟨m, hm⟩ : ∃ m, k - (List.replicate (idx - next).toNat (0 : K)).length = m + 1 := ⟨k - (idx - next).toNat - 1, by simp; omega⟩
        rw [hm, List.getElem?_cons_succ, ← List.getD_eq_getElem?_getD, i5 m]
        congr 1
        simp at hm
        omega

theorem nFeat_aux (ls : List (Line Int K)) : ∀ n0 : Int, let n := ls.foldl (fun n l => if lastIndex l > n then lastIndex l else n) n0
    n0 ≤ n ∧ (∀ l ∈ ls, lastIndex l ≤ n) ∧ (n = n0 ∨ ∃ l ∈ ls, lastIndex l = n) := by
  induction ls with
  | nil => intro n0; simp
  | cons l ls ih =>
    intro n0
    obtain ⟨h1, h2, h3⟩ := ih (if lastIndex l > n0 then lastIndex l else n0)
    simp only [List.foldl_cons]
    refine ⟨?_, ?_, ?_⟩
    · refine le_trans ?_ h1; split_ifs <;> omega
    · intro x hx
      rcases List.mem_cons.1 hx with rfl | hx
      · refine le_trans ?_ h1; split_ifs <;> omega
      · exact h2 x hx
    · rcases h3 with h | ⟨x, hx, h⟩
      · by_cases hc : lastIndex l > n0
        · right; exact ⟨l, List.mem_cons_self, by rw [h, if_pos hc]⟩
        · left; rw [h, if_neg hc]
      · right; exact ⟨x, List.mem_cons_of_mem _ hx, h⟩

theorem lastIndex_feats {l : Line Int K} (hne : l.feats ≠ []) : ∃ p ∈ l.feats, lastIndex l = p.1 ∧ l.feats.getLast? = some p := by
  refine ⟨l.feats.getLast hne, List.getLast_mem hne, ?_, List.getLast?_eq_some_getLast hne⟩
  unfold lastIndex
  rw [List.getLast?_eq_some_getLast hne]

theorem row_spec (n : Int) (l : Line Int K) (hi : Increasing l.feats) (hn : ∀ p ∈ l.feats, p.1 ≤ n) (hn0 : 0 ≤ n) :
    ((row n l).length : Int) = n ∧ ∀ k : Nat, (row n l).getD k 0 = valueOf l.feats (k + 1) := by
  obtain ⟨h1, h2, h3, h4, h5⟩ := expand_spec l.feats 1 hi.1 hi.2
  have e : row n l = (expand 1 l.feats).1 ++ List.replicate (n + 1 - (expand 1 l.feats).2).toNat 0 := rfl
  have hle : (expand 1 l.feats).2 ≤ n + 1 := by
    rw [h4]
    cases hl : l.feats.getLast? with
    | none => simp only; omega
    | some p => have := hn p (List.mem_of_getLast? hl); simp only; omega
  refine ⟨?_, fun k => ?_⟩
  · rw [e, List.length_append, List.length_replicate]; push_cast; omega
  · rw [e]
    by_cases hk : k < (expand 1 l.feats).1.length
    · rw [List.getD_eq_getElem?_getD, List.getElem?_append_left hk, ← List.getD_eq_getElem?_getD, h5, add_comm]
    · rw [List.getD_eq_getElem?_getD, List.getElem?_append_right (by omega), List.getElem?_replicate]
      have hz : valueOf l.feats (k + 1) = 0 := valueOf_zero _ _ fun p hp => by have := h3 p hp; omega
      rw [hz]
      split_ifs <;> rfl

theorem toArray_ok (rows : List (List K)) (n : Nat) (h : ∀ r ∈ rows, r.length = n) : toArray rows = .ok rows := by
  cases rows with
  | nil => rfl
  | cons r rs =>
    have hall : ∀ r' ∈ rs, r'.length = r.length := fun r' hr' => by rw [h r' (List.mem_cons_of_mem _ hr'), h r List.mem_cons_self]
    simp only [toArray]
    rw [if_pos hall]

theorem mapM_some {α : Type} (l : List α) : (l.map some).mapM id = some l := by
  induction l with
  | nil => rfl
  | cons a l ih => simp [List.mapM_cons, ih]

theorem mapM_none {α : Type} (l : List (Option α)) (h : none ∈ l) : l.mapM id = none := by
  induction l with
  | nil => simp at h
  | cons a l ih =>
    rcases List.mem_cons.1 h with rfl | h'
    · simp [List.mapM_cons]
    · rw [List.mapM_cons, ih h']
      cases a <;> rfl

theorem list_ext_getD (a b : List K) (h : a.length = b.length) (hd : ∀ k, a.getD k 0 = b.getD k 0) : a = b := by
  refine List.ext_getElem h fun k h1 h2 => ?_
  have := hd k
  rwa [List.getD_eq_getElem?_getD, List.getElem?_eq_getElem h1, List.getD_eq_getElem?_getD, List.getElem?_eq_getElem h2] at this

section
variable [DecidableEq K]

theorem encode_mem (v : List K) (p : Int × K) : p ∈ encode v ↔ ∃ k : Nat, v[k]? = some p.2 ∧ p.2 ≠ 0 ∧ p.1 = k + 1 := by
  unfold encode
  rw [List.mem_map]
  constructor
  · rintro ⟨⟨a, i⟩, h, rfl⟩
    obtain ⟨h1, h2⟩ := List.mem_filter.1 h
    have := List.mem_zipIdx_iff_getElem?.1 h1
    exact ⟨i, this, by simpa using h2, rfl⟩
  · rintro ⟨k, h1, h2, h3⟩
    exact ⟨(p.2, k), List.mem_filter.2 ⟨List.mem_zipIdx_iff_getElem?.2 h1, by simpa using h2⟩, by rw [← h3]⟩

theorem encode_increasing (v : List K) : Increasing (encode v) := by
  constructor
  · unfold encode
    rw [List.pairwise_map]
    refine List.Pairwise.filter _ ?_
    have h : (v.zipIdx.map Prod.snd).Pairwise (· < ·) := by
      rw [List.zipIdx_map_snd]
      exact List.pairwise_lt_range'
    rw [List.pairwise_map] at h
    exact h.imp fun {a b} hab => by simp only; omega
  · intro p hp
    obtain ⟨k, _, _, h⟩ := (encode_mem v p).1 hp
    omega

omit [DecidableEq K] in
theorem find_of_increasing (feats : List (Int × K)) (h : feats.Pairwise (fun a b => a.1 < b.1)) (p : Int × K) (hp : p ∈ feats) : valueOf feats p.1 = p.2 := by
  induction feats with
  | nil => simp at hp
  | cons a r ih =>
    obtain ⟨idx, val⟩ := a
    rw [valueOf_cons]
    obtain ⟨h1, h2⟩ := List.pairwise_cons.1 h
    rcases List.mem_cons.1 hp with rfl | hp
    · simp
    · rw [if_neg (by have := h1 p hp; simp only at this; omega)]
      exact ih h2 hp

theorem valueOf_encode (v : List K) (k : Nat) : valueOf (encode v) (k + 1) = v.getD k 0 := by
  by_cases h : v.getD k 0 = 0
  · rw [h]
    refine valueOf_zero _ _ fun p hp he => ?_
    obtain ⟨j, h1, h2, h3⟩ := (encode_mem v p).1 hp
    obtain rfl : j = k := by omega
    rw [List.getD_eq_getElem?_getD, h1] at h
    exact h2 h
  · have hk : v[k]? = some (v.getD k 0) := by
      rw [List.getD_eq_getElem?_getD] at h ⊢
      cases hv : v[k]? with
      | none => rw [hv] at h; simp at h
      | some a => simp
    exact find_of_increasing _ (encode_increasing v).1 ((k : Int) + 1, v.getD k 0) ((encode_mem v _).2 ⟨k, hk, h, rfl⟩)

end

theorem foldl_len (x : List (List K)) : ∀ n0 : Nat, let n := x.foldl (fun n xi => if n < xi.length then xi.length else n) n0
    n0 ≤ n ∧ (∀ l ∈ x, l.length ≤ n) ∧ (n = n0 ∨ ∃ l ∈ x, l.length = n) := by
  induction x with
  | nil => intro n0; simp
  | cons l ls ih =>
    intro n0
    obtain ⟨h1, h2, h3⟩ := ih (if n0 < l.length then l.length else n0)
    simp only [List.foldl_cons]
    refine ⟨?_, ?_, ?_⟩
    · refine le_trans ?_ h1; split_ifs <;> omega
    · intro y hy
      rcases List.mem_cons.1 hy with rfl | hy
      · refine le_trans ?_ h1; split_ifs <;> omega
      · exact h2 y hy
    · rcases h3 with h | ⟨y, hy, h⟩
      · by_cases hc : n0 < l.length
        · right; exact ⟨l, List.mem_cons_self, by rw [h, if_pos hc]⟩
        · left; rw [h, if_neg hc]
      · right; exact ⟨y, List.mem_cons_of_mem _ hy, h⟩

section
variable {L : Type} [DecidableEq L]

theorem getHist_setHist (h : List (L × Nat)) (c c' : L) (n : Nat) : getHist (setHist h c n) c' = if c' = c then some n else getHist h c' := by
  unfold setHist
  split_ifs with hany hc hc
  · subst hc
    induction h with
    | nil => simp at hany
    | cons e h ih =>
      unfold getHist at ih ⊢
      by_cases he : e.1 = c'
      · simp [he, List.find?_cons]
      · simp only [List.any_cons, he, decide_false, Bool.false_or] at hany
        simpa [he, List.find?_cons] using ih hany
  · clear hany
    induction h with
    | nil => simp [getHist]
    | cons e h ih =>
      unfold getHist at ih ⊢
      rw [List.map_cons, List.find?_cons, List.find?_cons]
      by_cases he : e.1 = c
      · simpa [he, Ne.symm hc] using ih
      · by_cases he' : e.1 = c' <;> simp [he, he', hc] <;> simpa using ih
  · subst hc
    unfold getHist
    have : h.find? (fun e => decide (e.1 = c')) = none := by
      rw [List.find?_eq_none]
      intro x hx hxe
      exact hany (List.any_eq_true.2 ⟨x, hx, hxe⟩)
    simp [List.find?_append, this]
  · unfold getHist
    rw [List.find?_append]
    have : List.find? (fun e => decide (e.1 = c')) [(c, n)] = none := by simp [Ne.symm hc]
    rw [this]; simp

theorem getHist_fold (y : List L) (order : List L) : ∀ h : List (L × Nat), ∀ c,
    getHist (order.foldl (fun h c => setHist h c (y.count c)) h) c = if c ∈ order then some (y.count c) else getHist h c := by
  induction order with
  | nil => intro h c; simp
  | cons a order ih =>
    intro h c
    rw [List.foldl_cons, ih, getHist_setHist]
    by_cases h1 : c ∈ order
    · simp [h1]
    · by_cases h2 : c = a
      · subst h2; simp [h1]
      · simp [h1, h2]

end

end Verif.Sparse

namespace Verif.Props
open Verif.DataSet (Err)
open Verif.Sparse

variable {K : Type} [Zero K]

/-- **C130, sparse files.** If every line names at least one feature and the features are in increasing order, `load_libsvm` gives one row for each line, with as many
entries as the largest number of a feature; entry `k` (from 0) is the value of feature `k + 1` in the line, 0 if the line does not mention it. -/
theorem C130_libsvm (ls : List (Line Int K)) (hf : ∀ l ∈ ls, l.feats ≠ [] ∧ Increasing l.feats) :
    ∃ rows n, loadLibsvm (ls.map some) = .ok (rows, ls.map Line.label) ∧ rows.length = ls.length ∧ (∀ l ∈ ls, ∀ p ∈ l.feats, p.1 ≤ (n : Nat)) ∧
      (ls ≠ [] → ∃ l ∈ ls, ∃ p ∈ l.feats, p.1 = (n : Nat)) ∧
      ∀ i (h : i < ls.length), (rows.getD i []).length = n ∧ ∀ k : Nat, (rows.getD i []).getD k 0 = valueOf ls[i].feats (k + 1) := by
  obtain ⟨n0, n1, n2⟩ := nFeat_aux ls 0
  have n0' : 0 ≤ nFeat ls := n0
  have n1' : ∀ l ∈ ls, lastIndex l ≤ nFeat ls := n1
  have hle : ∀ l ∈ ls, ∀ p ∈ l.feats, p.1 ≤ nFeat ls := by
    intro l hl p hp
    obtain ⟨q, _, hq, hlast⟩ := lastIndex_feats (hf l hl).1
    obtain ⟨-, -, h3, h4, -⟩ := expand_spec l.feats 1 (hf l hl).2.1 (hf l hl).2.2
    have := h3 p hp
    rw [h4, hlast] at this
    have := n1' l hl
    simp only at *
    omega
  have hrow : ∀ l ∈ ls, ((row (nFeat ls) l).length : Int) = nFeat ls ∧ ∀ k : Nat, (row (nFeat ls) l).getD k 0 = valueOf l.feats (k + 1) :=
    fun l hl => row_spec _ l (hf l hl).2 (hle l hl) n0'
  obtain ⟨n, hn⟩ := Int.eq_ofNat_of_zero_le n0'
  have harr : toArray (ls.map (row (nFeat ls))) = .ok (ls.map (row (nFeat ls))) := toArray_ok _ n fun r hr => by
    obtain ⟨l, hl, rfl⟩ := List.mem_map.1 hr
    have := (hrow l hl).1
    omega
  refine ⟨ls.map (row (nFeat ls)), n, ?_, by simp, fun l hl p hp => by have := hle l hl p hp; omega, ?_, ?_⟩
  · unfold loadLibsvm
    rw [mapM_some]
    simp only [harr, Except.map]
  · intro hne
    rcases n2 with h | ⟨l, hl, h⟩
    · obtain ⟨l, hl⟩ := List.exists_mem_of_ne_nil _ hne
      obtain ⟨p, hp, _⟩ := lastIndex_feats (hf l hl).1
      have h1 := hle l hl p hp
      have h2 := (hf l hl).2.2 p hp
      have h' : nFeat ls = 0 := h
      omega
    · obtain ⟨p, hp, hpe, _⟩ := lastIndex_feats (hf l hl).1
      have h' : lastIndex l = nFeat ls := h
      exact ⟨l, hl, p, hp, by omega⟩
  · intro i h
    have hl : ls[i] ∈ ls := List.getElem_mem h
    have e : (ls.map (row (nFeat ls))).getD i [] = row (nFeat ls) ls[i] := by simp [List.getD_eq_getElem?_getD, h]
    rw [e]
    have := (hrow _ hl).1
    exact ⟨by omega, (hrow _ hl).2⟩

/-- **C130, round trip.** Vectors written in the sparse format, without their zeros, are read back as they were, if none of them is zero and the last component is used. -/
theorem C130_roundtrip [DecidableEq K] (samples : List (List K × Int)) (n : Nat) (hlen : ∀ s ∈ samples, s.1.length = n) (hnz : ∀ s ∈ samples, ∃ a ∈ s.1, a ≠ 0)
    (hlast : ∃ s ∈ samples, 0 < n ∧ s.1.getD (n - 1) 0 ≠ 0) :
    loadLibsvm (samples.map fun s => some { label := s.2, feats := encode s.1 }) = .ok (samples.map Prod.fst, samples.map Prod.snd) := by
  obtain ⟨rows, m, h1, h2, h3, h4, h5⟩ := C130_libsvm (samples.map fun s => ({ label := s.2, feats := encode s.1 } : Line Int K)) (by
    intro l hl
    obtain ⟨s, hs, rfl⟩ := List.mem_map.1 hl
    refine ⟨?_, encode_increasing _⟩
    obtain ⟨a, ha, ha0⟩ := hnz s hs
    obtain ⟨k, hk⟩ := List.mem_iff_getElem?.1 ha
    intro he
    have : ((k : Int) + 1, a) ∈ encode s.1 := (encode_mem _ _).2 ⟨k, hk, ha0, rfl⟩
    simp only at he
    rw [he] at this
    simp at this)
  have hmn : m = n := by
    obtain ⟨s, hs, hn0, hs0⟩ := hlast
    have hk : s.1[n - 1]? = some (s.1.getD (n - 1) 0) := by
      have : n - 1 < s.1.length := by rw [hlen s hs]; omega
      rw [List.getD_eq_getElem?_getD, List.getElem?_eq_getElem this]; rfl
    have hge := h3 _ (List.mem_map.2 ⟨s, hs, rfl⟩) (((n - 1 : Nat) : Int) + 1, s.1.getD (n - 1) 0) ((encode_mem _ _).2 ⟨n - 1, hk, hs0, rfl⟩)
    obtain ⟨l, hl, p, hp, hpm⟩ := h4 (by intro h; rw [List.map_eq_nil_iff] at h; rw [h] at hs; simp at hs)
    obtain ⟨s', hs', rfl⟩ := List.mem_map.1 hl
    obtain ⟨k, hk', _, hpk⟩ := (encode_mem _ _).1 hp
    have hlt : k < s'.1.length := (List.getElem?_eq_some_iff.1 hk').1
    rw [hlen s' hs'] at hlt
    simp only at hge
    omega
  have e0 : (samples.map fun s => some ({ label := s.2, feats := encode s.1 } : Line Int K)) = (samples.map fun s => ({ label := s.2, feats := encode s.1 } : Line Int K)).map some := by
    simp
  rw [e0, h1]
  congr 2
  · refine List.ext_getElem (by simpa using h2) fun i hi hi' => ?_
    have hi2 : i < samples.length := by simpa using hi'
    obtain ⟨h6, h7⟩ := h5 i (by simpa using hi2)
    have e : rows.getD i [] = rows[i] := by rw [List.getD_eq_getElem?_getD, List.getElem?_eq_getElem hi]; rfl
    rw [e] at h6 h7
    rw [List.getElem_map]
    refine list_ext_getD _ _ (by rw [h6, hmn, hlen _ (List.getElem_mem hi2)]) fun k => ?_
    rw [h7 k]
    simp only [List.getElem_map]
    exact valueOf_encode _ k
  · simp

/-- **C130 violated: samples without features.** For a line that has a label only (all features are zero), the label is taken for the number of a feature: if it is
larger than all numbers of features, all samples get as many entries as the label says. -/
theorem C130_negation_label (ls : List (Line Int K)) (hf : ∀ l ∈ ls, l.feats ≠ [] ∧ Increasing l.feats) (label : Int) (hl : 0 < label)
    (hbig : ∀ l ∈ ls, ∀ p ∈ l.feats, p.1 < label) :
    ∃ rows, loadLibsvm ((ls ++ [({ label := label, feats := [] } : Line Int K)]).map some) = .ok (rows, ls.map Line.label ++ [label]) ∧ rows.length = ls.length + 1 ∧
      ∀ r ∈ rows, (r.length : Int) = label := by
  have hn : nFeat (ls ++ [({ label := label, feats := [] } : Line Int K)]) = label := by
    obtain ⟨-, n1, n2⟩ := nFeat_aux (ls ++ [({ label := label, feats := [] } : Line Int K)]) 0
    have h1 := n1 ({ label := label, feats := [] }) (by simp)
    have e : lastIndex ({ label := label, feats := [] } : Line Int K) = label := rfl
    rcases n2 with h | ⟨l, hlm, h⟩
    · rw [e, h] at h1
      omega
    · rcases List.mem_append.1 hlm with h2 | h2
      · obtain ⟨p, hp, hpe, _⟩ := lastIndex_feats (hf l h2).1
        have := hbig l h2 p hp
        rw [← h, e] at h1
        omega
      · obtain rfl := List.mem_singleton.1 h2
        exact h.symm.trans e
  have hrow : ∀ l ∈ ls ++ [({ label := label, feats := [] } : Line Int K)], ((row label l).length : Int) = label := by
    intro l hlm
    rcases List.mem_append.1 hlm with h2 | h2
    · exact (row_spec label l (hf l h2).2 (fun p hp => (hbig l h2 p hp).le) hl.le).1
    · obtain rfl := List.mem_singleton.1 h2
      exact (row_spec label _ ⟨List.Pairwise.nil, by simp⟩ (by simp) hl.le).1
  refine ⟨(ls ++ [({ label := label, feats := [] } : Line Int K)]).map (row label), ?_, by simp, ?_⟩
  · unfold loadLibsvm
    rw [mapM_some]
    simp only [hn]
    rw [toArray_ok _ label.toNat fun r hr => by
      obtain ⟨l, hlm, rfl⟩ := List.mem_map.1 hr
      have := hrow l hlm
      omega]
    simp [Except.map]
  · intro r hr
    obtain ⟨l, hlm, rfl⟩ := List.mem_map.1 hr
    exact hrow l hlm

/-- **C130 violated: order of features.** If a line lists feature 2 before feature 1, the value of feature 1 is stored as that of a third feature. -/
theorem C130_negation_order (a b : K) (label : Int) :
    loadLibsvm [some { label := label, feats := [(2, b), (1, a)] }] = .ok ([[0, b, a]], [label]) := by
  have h : nFeat [({ label := label, feats := [(2, b), (1, a)] } : Line Int K)] = 1 := by simp [nFeat, lastIndex]
  simp [loadLibsvm, List.mapM_cons, h, row, expand, toArray, Except.map]

/-- **C130 violated: blank lines**, such as one at the end of the file, raise an IndexError in both loaders. -/
theorem C130_negation_blank {L : Type} [DecidableEq L] (file : List (Option (Line Int K))) (h : none ∈ file) (order : List L → List L) (s : SVM L K)
    (file' : List (Option (Line L K))) (h' : none ∈ file') : loadLibsvm file = .error .indexError ∧ loadSVM order s file' = .error .indexError := by
  unfold loadLibsvm loadSVM
  rw [mapM_none _ h, mapM_none _ h']
  exact ⟨rfl, rfl⟩

variable {L : Type} [DecidableEq L]

/-- **C130, SVMData.** A new object that loads a file whose lines have their features in increasing order (or none at all) has one row for each line, with as many entries as the
largest number of a feature, and the values of the lines; the number of samples and the histogram of classes are right. -/
theorem C130_svm (order : List L → List L) (ho : ∀ y c, c ∈ order y ↔ c ∈ y) (ls : List (Line L K)) (hne : ls ≠ []) (hf : ∀ l ∈ ls, Increasing l.feats) :
    ∃ s n, loadSVM order (newSVM : SVM L K) (ls.map some) = .ok s ∧ s.target = ls.map Line.label ∧ s.input.length = ls.length ∧ s.nSamples = ls.length ∧
      (∀ l ∈ ls, ∀ p ∈ l.feats, p.1 ≤ (n : Nat)) ∧ (n = 0 ∨ ∃ l ∈ ls, ∃ p ∈ l.feats, p.1 = (n : Nat)) ∧
      (∀ i (h : i < ls.length), (s.input.getD i []).length = n ∧ ∀ k : Nat, (s.input.getD i []).getD k 0 = valueOf ls[i].feats (k + 1)) ∧
      ∀ c, getHist s.classHist c = if c ∈ ls.map Line.label then some ((ls.map Line.label).count c) else none := by
  set x := ls.map fun l => (expand 1 l.feats).1 with hx
  set m := x.foldl (fun n xi => if n < xi.length then xi.length else n) 0 with hm
  obtain ⟨-, m1, m2⟩ := foldl_len x 0
  have hsp := fun l (hl : l ∈ ls) => expand_spec l.feats 1 (hf l hl).1 (hf l hl).2
  have hlen : ∀ l ∈ ls, (expand 1 l.feats).1.length ≤ m := fun l hl => m1 _ (List.mem_map.2 ⟨l, hl, rfl⟩)
  have hrows : svmRows ls = ls.map fun l => (expand 1 l.feats).1 ++ List.replicate (m - (expand 1 l.feats).1.length) 0 := by
    unfold svmRows
    simp only [← hx, ← hm, List.map_map]
    rw [hx, List.map_map]
    rfl
  have harr : toArray (svmRows ls) = .ok (svmRows ls) := toArray_ok _ m fun r hr => by
    rw [hrows] at hr
    obtain ⟨l, hl, rfl⟩ := List.mem_map.1 hr
    have := hlen l hl
    simp; omega
  have hne' : svmRows ls ≠ [] := by rw [hrows]; simpa using hne
  have hload : loadSVM order (newSVM : SVM L K) (ls.map some) = .ok { (newSVM : SVM L K) with
      nSamples := 0 + ls.length, input := svmRows ls, target := ls.map Line.label
      classHist := (order (ls.map Line.label)).foldl (fun h c => setHist h c ((ls.map Line.label).count c)) [] } := by
    unfold loadSVM
    rw [mapM_some]
    simp only [setDataFields, if_neg hne', harr]
    rfl
  refine ⟨_, m, hload, rfl, by simp [hrows], by simp, ?_, ?_, ?_, ?_⟩
  · intro l hl p hp
    obtain ⟨h1, h2, h3, _, _⟩ := hsp l hl
    have := h3 p hp
    have := hlen l hl
    omega
  · rcases m2 with h | ⟨y, hy, h⟩
    · exact Or.inl h
    · obtain ⟨l, hl, rfl⟩ := List.mem_map.1 hy
      obtain ⟨h1, h2, h3, h4, _⟩ := hsp l hl
      have h' : (expand 1 l.feats).1.length = m := h
      cases hlast : l.feats.getLast? with
      | none =>
        rw [hlast] at h4
        left; simp only at h4; omega
      | some p =>
        rw [hlast] at h4
        right; exact ⟨l, hl, p, List.mem_of_getLast? hlast, by simp only at h4; omega⟩
  · intro i h
    have hl : ls[i] ∈ ls := List.getElem_mem h
    obtain ⟨h1, h2, h3, _, h5⟩ := hsp _ hl
    have hle := hlen _ hl
    have e : (svmRows ls).getD i [] = (expand 1 ls[i].feats).1 ++ List.replicate (m - (expand 1 ls[i].feats).1.length) 0 := by
      rw [hrows]; simp [List.getD_eq_getElem?_getD, h]
    simp only [e]
    refine ⟨by simp; omega, fun k => ?_⟩
    by_cases hk : k < (expand 1 ls[i].feats).1.length
    · rw [List.getD_eq_getElem?_getD, List.getElem?_append_left hk, ← List.getD_eq_getElem?_getD, h5, add_comm]
    · rw [List.getD_eq_getElem?_getD, List.getElem?_append_right (by omega), List.getElem?_replicate]
      rw [valueOf_zero _ _ fun p hp => by have := h3 p hp; omega]
      split_ifs <;> rfl
  · intro c
    simp only [getHist_fold, ho]
    split_ifs <;> rfl

/-- **C130 violated: a second file.** When an object loads another file, the number of samples counts both files, although the fields hold those of the second only, and classes that occur
only in the first file stay in the histogram. -/
theorem C130_negation_reload (order : List L → List L) (ho : ∀ y c, c ∈ order y ↔ c ∈ y) (ls ls' : List (Line L K)) (s s' : SVM L K)
    (h : loadSVM order (newSVM : SVM L K) (ls.map some) = .ok s) (h' : loadSVM order s (ls'.map some) = .ok s') :
    s'.target = ls'.map Line.label ∧ s'.nSamples = ls.length + ls'.length ∧
    ∀ c, c ∈ ls.map Line.label → c ∉ ls'.map Line.label → getHist s'.classHist c = some ((ls.map Line.label).count c) := by
  have step : ∀ (t t' : SVM L K) (f : List (Line L K)), loadSVM order t (f.map some) = .ok t' → t'.target = f.map Line.label ∧ t'.nSamples = t.nSamples + f.length ∧
      ∀ c, getHist t'.classHist c = if c ∈ f.map Line.label then some ((f.map Line.label).count c) else getHist t.classHist c := by
    intro t t' f hf
    unfold loadSVM at hf
    rw [mapM_some] at hf
    simp only [setDataFields] at hf
    split_ifs at hf
    split at hf
    · simp at hf
    · obtain rfl := Except.ok.inj hf
      exact ⟨rfl, rfl, fun c => by simp only [getHist_fold, ho]⟩
  obtain ⟨_, a2, a3⟩ := step _ _ _ h
  obtain ⟨b1, b2, b3⟩ := step _ _ _ h'
  refine ⟨b1, ?_, fun c hc hc' => ?_⟩
  · rw [b2, a2]; simp [newSVM]
  · rw [b3, if_neg hc', a3, if_pos hc]

/-- **C130 violated: the number of classes** reported by `getNbClasses` after loading a sparse file is 0. -/
theorem C130_negation_classes (order : List L → List L) (file : List (Option (Line L K))) (s : SVM L K) (h : loadSVM order (newSVM : SVM L K) file = .ok s) : s.nCls = 0 := by
  unfold loadSVM at h
  split at h
  · simp at h
  · simp only [setDataFields] at h
    split_ifs at h
    split at h
    · simp at h
    · obtain rfl := Except.ok.inj h
      rfl

/-- **C130, raw files.** If each line of the file of targets has an entry that is not zero, the labels are the positions of the first ones. -/
theorem C130_raw (targs : List (List Int)) (h : ∀ t ∈ targs, ∃ v ∈ t, v ≠ 0) (prev : Option Nat) :
    ∃ labels, rawLabels prev targs.length targs = .ok labels ∧ labels.length = targs.length ∧
      ∀ i (hi : i < targs.length), targs[i].getD (labels.getD i 0) 0 ≠ 0 ∧ ∀ j < labels.getD i 0, targs[i].getD j 0 = 0 := by
  induction targs generalizing prev with
  | nil => exact ⟨[], rfl, rfl, by simp⟩
  | cons t ts ih =>
    obtain ⟨v, hv, hv0⟩ := h t List.mem_cons_self
    cases hidx : t.findIdx? (fun v => decide (v ≠ 0)) with
    | none =>
      rw [List.findIdx?_eq_none_iff] at hidx
      have := hidx v hv
      simp [hv0] at this
    | some k =>
      obtain ⟨labels, h1, h2, h3⟩ := ih (fun t' ht' => h t' (List.mem_cons_of_mem _ ht')) (some k)
      have hr : rawLabel prev t = some k := by unfold rawLabel; rw [hidx]
      refine ⟨k :: labels, by simp [rawLabels, hr, h1, Except.map], by simp [h2], ?_⟩
      intro i hi
      cases i with
      | zero =>
        obtain ⟨hk, hk1, hk2⟩ := List.findIdx?_eq_some_iff_getElem.1 hidx
        refine ⟨?_, fun j hj => ?_⟩
        · simpa [List.getD_eq_getElem?_getD, hk] using hk1
        · have hj' : j < k := by simpa using hj
          have := hk2 j hj'
          have hjl : j < t.length := by omega
          simpa [List.getD_eq_getElem?_getD, hjl] using this
      | succ i => simpa using h3 i (by simpa using hi)

/-- **C130 violated: missing targets.** If a line of the targets is zero or missing, the label of the line before is used again, without any warning: for one line of targets, all further samples
get its label. -/
theorem C130_negation_targets (t : List Int) (k : Nat) (h : t.findIdx? (fun v => decide (v ≠ 0)) = some k) (n : Nat) :
    rawLabels none (n + 1) [t] = .ok (List.replicate (n + 1) k) := by
  have key : ∀ n, rawLabels (some k) n [] = .ok (List.replicate n k) := by
    intro n
    induction n with
    | zero => rfl
    | succ n ih => simp [rawLabels, rawLabel, ih, Except.map, List.replicate_succ]
  have hr : rawLabel none t = some k := by unfold rawLabel; rw [h]
  simp [rawLabels, hr, key, Except.map, List.replicate_succ]

/-- a file with two samples -/
def sparseExample : List (Line Int Int) := [{ label := 1, feats := [(1, 5), (4, 7)] }, { label := -1, feats := [(3, 2)] }]

example : (∀ l ∈ sparseExample, l.feats ≠ [] ∧ Increasing l.feats) ∧
    (loadLibsvm (sparseExample.map some)).toOption = some ([[5, 0, 0, 7], [0, 0, 2, 0]], [1, -1]) := by
  refine ⟨?_, by decide +kernel⟩
  intro l hl
  simp only [sparseExample, List.mem_cons, List.not_mem_nil, or_false] at hl
  rcases hl with rfl | rfl <;> simp [Increasing]

example : encode [(0 : Int), 3, 0, -2] = [(2, 3), (4, -2)] := by decide +kernel

end Verif.Props
