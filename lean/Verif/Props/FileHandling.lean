import Verif.Model.FileHandling
import Mathlib.Data.List.Infix
import Mathlib.Tactic.SplitIfs
/-
C156: lists of files and dictionaries in files.
-/
namespace Verif.FileHandling

theorem find_none (rs : List Char) : ∀ s, find rs s = none ↔ ¬ rs <:+: s
  | [] => by
    rw [find]
    cases rs <;> simp [List.isPrefixOf]
  | c :: s => by
    rw [find, List.infix_cons_iff, ← List.isPrefixOf_iff_prefix, not_or, ← find_none rs s]
    split_ifs with h
    · simp [h]
    · simp [h]

theorem find_isSome (rs s : List Char) : (find rs s).isSome = true ↔ rs <:+: s := by
  rw [← not_iff_not, ← find_none, Option.not_isSome_iff_eq_none]

theorem find_isNone (rs s : List Char) : (find rs s).isNone = true ↔ ¬ rs <:+: s := by
  rw [← find_none, Option.isNone_iff_eq_none]

section
variable {κ δ : Type} [DecidableEq κ]

/-- what the dictionary has for a key -/
def get (d : Dict κ δ) (k : κ) : Option (List δ) := (d.find? fun e => e.1 == k).map Prod.snd

theorem get_cons (e : κ × List δ) (d : Dict κ δ) (k : κ) : get (e :: d) k = if e.1 = k then some e.2 else get d k := by
  unfold get
  rw [List.find?_cons]
  by_cases h : e.1 = k
  · simp [h]
  · have : (e.1 == k) = false := by simpa using h
    rw [this, if_neg h]

theorem get_any (d : Dict κ δ) (k : κ) : (d.any fun e => e.1 == k) = (get d k).isSome := by
  induction d with
  | nil => rfl
  | cons e d ih =>
    rw [List.any_cons, get_cons, ih]
    by_cases h : e.1 = k <;> simp [h]

/-- adding extends the list of the key and nothing else -/
theorem get_addTo (d : Dict κ δ) (k k' : κ) (x : δ) : get (addTo d k x) k' = if k' = k then some ((get d k).getD [] ++ [x]) else get d k' := by
  unfold addTo
  rw [get_any]
  split_ifs with h1 h2 h2
  · subst h2
    induction d with
    | nil => simp [get] at h1
    | cons e d ih =>
      rw [get_cons] at h1 ⊢
      rw [List.map_cons, get_cons]
      by_cases h : e.1 = k'
      · simp [h]
      · rw [if_neg h] at h1 ⊢
        rw [if_neg (by simpa [h] using h), ih h1, if_neg h]
  · clear h1
    induction d with
    | nil => rfl
    | cons e d ih =>
      rw [List.map_cons, get_cons, get_cons, ih]
      by_cases h : e.1 = k
      · have : e.1 ≠ k' := fun he => h2 (he.symm.trans h)
        simp [h, Ne.symm h2]
      · simp [h]
  · subst h2
    have : get d k' = none := by
      cases hg : get d k' with
      | none => rfl
      | some _ => rw [hg] at h1; simp at h1
    rw [this]
    unfold get at this ⊢
    rw [Option.map_eq_none_iff] at this
    rw [List.find?_append, this]
    simp
  · unfold get
    rw [List.find?_append]
    cases d.find? fun e => e.1 == k' with
    | none =>
      have : (k == k') = false := by simpa using Ne.symm h2
      simp [this]
    | some e => simp

end
end Verif.FileHandling

namespace Verif.Props
open Verif.FileHandling

/-- **C156, files of a directory.** For an extension that is not empty: exactly the names whose file (with the extension) is there and begins with the tag are returned, in the order of the directory, each as often as its file. -/
theorem C156_files (files : List (List Char)) (tag ext : List Char) (he : ext ≠ []) :
    (getAllFilesIn files tag ext).map (fun n => n ++ ext) = files.filter (fun f => decide (ext <:+ f ∧ tag <+: f)) ∧ ∀ n, n ∈ getAllFilesIn files tag ext ↔ n ++ ext ∈ files ∧ tag <+: n ++ ext := by
  have hl : ext.length ≠ 0 := fun h => he (List.length_eq_zero_iff.1 h)
  have hp : ∀ f : List Char, (lastChars ext.length f == ext && f.take tag.length == tag) = decide (ext <:+ f ∧ tag <+: f) := by
    intro f
    rw [Bool.eq_iff_iff, Bool.and_eq_true, beq_iff_eq, beq_iff_eq, decide_eq_true_eq, lastChars, if_neg hl, List.suffix_iff_eq_drop, List.prefix_iff_eq_take]
    exact ⟨fun h => ⟨h.1.symm, h.2.symm⟩, fun h => ⟨h.1.symm, h.2.symm⟩⟩
  have h1 : (getAllFilesIn files tag ext).map (fun n => n ++ ext) = files.filter (fun f => decide (ext <:+ f ∧ tag <+: f)) := by
    unfold getAllFilesIn
    rw [List.filter_congr (fun f _ => hp f), List.map_map]
    conv_rhs => rw [← List.map_id (files.filter _)]
    refine List.map_congr_left fun f hf => ?_
    have hf' := (List.mem_filter.1 hf).2
    rw [decide_eq_true_eq] at hf'
    obtain ⟨t, rfl⟩ := hf'.1
    simp [withoutLast, hl]
  refine ⟨h1, fun n => ?_⟩
  constructor
  · intro h
    have : n ++ ext ∈ (getAllFilesIn files tag ext).map (fun n => n ++ ext) := List.mem_map_of_mem h
    rw [h1, List.mem_filter, decide_eq_true_eq] at this
    exact ⟨this.1, this.2.2⟩
  · rintro ⟨h, ht⟩
    have : n ++ ext ∈ (getAllFilesIn files tag ext).map (fun n => n ++ ext) := by
      rw [h1, List.mem_filter, decide_eq_true_eq]
      exact ⟨h, List.suffix_append _ _, ht⟩
    obtain ⟨m, hm, e⟩ := List.mem_map.1 this
    rwa [← List.append_cancel_right e]

example : getAllFilesIn ["ab.pickle".toList, "b.pickle".toList, "ax.txt".toList] "a".toList ".pickle".toList = ["ab".toList] := by decide

/-- **C156 violated: no extension.** With the empty extension, no file is found, whatever the directory contains. -/
theorem C156_negation_extension (files : List (List Char)) (tag : List Char) (h : ∀ f ∈ files, f ≠ []) : getAllFilesIn files tag [] = [] := by
  unfold getAllFilesIn
  rw [List.map_eq_nil_iff, List.filter_eq_nil_iff]
  intro f hf
  simp [lastChars, h f hf]

/-- **C156, selection.** Without required substrings everything is selected. Otherwise, by default, those strings that contain all of them, or with `requireAll=False` those that contain at least one, in order. -/
theorem C156_select (strings required : List (List Char)) :
    selectSome strings [] = strings ∧ selectSome strings required true = strings.filter (fun s => decide (∀ rs ∈ required, rs <:+: s)) ∧
      (required ≠ [] → selectSome strings required false = strings.filter (fun s => decide (∃ rs ∈ required, rs <:+: s))) := by
  refine ⟨rfl, ?_, ?_⟩
  · unfold selectSome
    split_ifs with h
    · rw [List.length_eq_zero_iff] at h
      subst h
      exact (List.filter_eq_self.2 (by simp)).symm
    · refine List.filter_congr fun s _ => ?_
      rw [Bool.eq_iff_iff]
      simp only [Bool.not_eq_true', decide_eq_true_eq, List.any_eq_false, find_isNone, not_not]
    · exact absurd rfl ‹¬ true = true›
  · intro h
    unfold selectSome
    rw [if_neg (fun h' => h (List.length_eq_zero_iff.1 h')), if_neg (by decide)]
    refine List.filter_congr fun s _ => ?_
    rw [Bool.eq_iff_iff]
    simp only [List.any_eq_true, find_isSome, decide_eq_true_eq]

/-- **C156 violated: at least one.** "Those that have at least one of the required substrings": by default a string needs all of them. -/
theorem C156_negation_some : "a".toList <:+: "a".toList ∧ "a".toList ∉ selectSome ["a".toList, "ab".toList] ["a".toList, "b".toList] := by decide

section
variable {κ δ : Type} [DecidableEq κ]

/-- **C156, dictionary files (partial).** If files take bytes, nobody else writes the file and no call is killed, then after any calls of addToDictFile the file holds, for every key, the data of its calls in their order,
after what was there before. What is missing: crashes, other processes and Python 3 (see the negations). -/
theorem C156_dict_partial (pk : Pickle (Dict κ δ)) (hpk : ∀ d, pk.decode (pk.encode d) = some d) (file : Option (List UInt8)) (calls : List (κ × δ)) (k : κ) :
    (get (readDict pk (addAll pk false file calls)) k).getD [] = (get (readDict pk file) k).getD [] ++ (calls.filter fun c => decide (c.1 = k)).map Prod.snd := by
  induction calls generalizing file with
  | nil => simp [addAll]
  | cons c calls ih =>
    rw [addAll, ih]
    have : readDict pk (addToDictFile pk false file c.1 c.2) = addTo (readDict pk file) c.1 c.2 := by
      simp [readDict, addToDictFile, dumpDict, hpk]
    rw [this, get_addTo]
    by_cases h : k = c.1
    · subst h
      simp
    · rw [if_neg h, List.filter_cons, if_neg (by simpa using Ne.symm h)]

/-- a toy pickling for one key and data of bytes: the list with its end marked -/
def toyPickle : Pickle (Dict Unit UInt8) :=
  ⟨fun d => match d with | [] => [0] | e :: _ => 1 :: e.2 ++ [0], fun b => match b with | 1 :: b => if b.getLast? = some 0 then some [((), b.dropLast)] else none | [0] => some [] | _ => none⟩

example : readDict toyPickle (addAll toyPickle false none [((), 5), ((), 6)]) = [((), [5, 6])] := by decide

/-- **C156 violated: crashes.** If a call is killed while it writes, all data that had been stored, for all keys, are gone: the next call finds an empty dictionary and stores its own data only. (Pickles end with a stop code,
so proper prefixes are not pickles.) -/
theorem C156_negation_crash (pk : Pickle (Dict κ δ)) (hpk : ∀ d, pk.decode (pk.encode d) = some d) (hstop : ∀ d n, n < (pk.encode d).length → pk.decode ((pk.encode d).take n) = none)
    (d : Dict κ δ) (n : Nat) (hn : n < (pk.encode d).length) (k : κ) (x : δ) :
    readDict pk (dumpKilled pk d n) = [] ∧ readDict pk (addToDictFile pk false (dumpKilled pk d n) k x) = [(k, [x])] := by
  have h : readDict pk (dumpKilled pk d n) = [] := by simp [readDict, dumpKilled, hstop d n hn]
  refine ⟨h, ?_⟩
  rw [addToDictFile, h]
  simp [readDict, dumpDict, hpk, addTo]

/-- **C156 violated: Python 3.** Where files opened with mode 'w' do not take bytes, every call of addToDictFile, and of pickleDumpDict, empties the file: nothing is stored, and earlier data are lost. -/
theorem C156_negation_text (pk : Pickle (Dict κ δ)) (file : Option (List UInt8)) (hempty : pk.decode [] = none) (k : κ) (x : δ) :
    readDict pk (addToDictFile pk true file k x) = [] ∧ ∀ d, dumpDict pk true d = (some [], false) := by
  refine ⟨?_, fun _ => rfl⟩
  simp [addToDictFile, dumpDict, readDict, hempty]

/-- **C156, processes in turn.** Processes that share a file lose nothing if each one ends its call before the next one begins. -/
theorem C156_serial (pk : Pickle (Dict κ δ)) (file : Option (List UInt8)) (k₁ k₂ : κ) (x₁ x₂ : δ) :
    (schedule pk false file [.todo k₁ x₁, .todo k₂ x₂] [0, 0, 1, 1]).1 = addAll pk false file [(k₁, x₁), (k₂, x₂)] := rfl

/-- **C156 violated: concurrent processes.** If a process reads the file between reading and writing of another one, the data of the other one are lost, whatever they are: the file is as if only the last process had run. -/
theorem C156_negation_race (pk : Pickle (Dict κ δ)) (file : Option (List UInt8)) (k₁ k₂ : κ) (x₁ x₂ : δ) :
    (schedule pk false file [.todo k₁ x₁, .todo k₂ x₂] [0, 1, 0, 1]).1 = addToDictFile pk false file k₂ x₂ := rfl

end
end Verif.Props
