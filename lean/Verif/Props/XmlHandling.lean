import Verif.Model.XmlHandling
import Mathlib.Data.List.Basic
import Mathlib.Tactic.SplitIfs
/-
C157: XML documents and the numbers in them.
-/
namespace Verif.XmlHandling
open Verif.DataSet (Err)

theorem getAttr_set (as : List (String × String)) (k k' v : String) : getAttr (setAttr as k v) k' = if k' = k then some v else getAttr as k' := by
  have cons : ∀ (e : String × String) (as : List (String × String)) (k : String), getAttr (e :: as) k = if e.1 = k then some e.2 else getAttr as k := by
    intro e as k
    unfold getAttr
    rw [List.find?_cons]
    by_cases h : e.1 = k
    · simp [h]
    · have : (e.1 == k) = false := by simpa using h
      rw [this, if_neg h]
  unfold setAttr
  split_ifs with h1 h2 h2
  · subst h2
    induction as with
    | nil => simp at h1
    | cons e as ih =>
      rw [List.map_cons, cons]
      by_cases h : e.1 = k'
      · simp [h]
      · rw [if_neg (by simpa [h] using h)]
        exact ih (by simpa [h] using h1)
  · clear h1
    induction as with
    | nil => rfl
    | cons e as ih =>
      rw [List.map_cons, cons, cons, ih]
      by_cases h : e.1 = k
      · simp [h, Ne.symm h2]
      · simp [h]
  · subst h2
    have : as.find? (fun e => e.1 == k') = none := by
      rw [List.find?_eq_none]
      intro e he hk
      exact h1 (List.any_eq_true.2 ⟨e, he, hk⟩)
    unfold getAttr
    rw [List.find?_append, this]
    simp
  · unfold getAttr
    rw [List.find?_append]
    have : (k == k') = false := by simpa using Ne.symm h2
    cases as.find? fun e => e.1 == k' <;> simp [this]

theorem getAttr_read (as : List (String × String)) (f : String → String → String) (k : String) : getAttr (readAttrDict as f) k = (getAttr as k).map fun v => f v k := by
  unfold getAttr readAttrDict
  induction as with
  | nil => rfl
  | cons e as ih =>
    rw [List.map_cons, List.find?_cons, List.find?_cons]
    by_cases h : e.1 = k
    · simp [h]
    · have : (e.1 == k) = false := by simpa using h
      simp only [this]
      exact ih

/-- a letter belongs to a word -/
theorem mem_splitGo (c : Char) (hc : c ≠ ' ') : ∀ (s cur : List Char), c ∈ cur ∨ c ∈ s → ∃ w ∈ splitGo cur s, c ∈ w
  | [], cur, h => by
    have h : c ∈ cur := by simpa using h
    rw [splitGo, if_neg (List.ne_nil_of_mem h)]
    exact ⟨cur, by simp, h⟩
  | a :: s, cur, h => by
    rw [splitGo]
    split_ifs with h1 h2
    · subst h1 h2
      exact mem_splitGo c hc s [] (by simpa [hc] using h)
    · subst h1
      rcases h with h | h
      · exact ⟨cur, by simp, h⟩
      · obtain ⟨w, hw, hcw⟩ := mem_splitGo c hc s [] (by simpa [hc] using h)
        exact ⟨w, List.mem_cons_of_mem _ hw, hcw⟩
    · refine mem_splitGo c hc s (cur ++ [a]) ?_
      simp only [List.mem_append, List.mem_cons, List.not_mem_nil, or_false] at h ⊢
      tauto

theorem mem_split (s : List Char) (c : Char) (h : c ∈ s) (hc : c ≠ ' ') : ∃ w ∈ split s, c ∈ w := mem_splitGo c hc s [] (.inr h)

theorem mapM_none {α β : Type} (f : α → Option β) : ∀ (l : List α) (a : α), a ∈ l → f a = none → l.mapM f = none
  | [], a, h, _ => by simp at h
  | b :: l, a, h, ha => by
    rw [List.mapM_cons]
    rcases List.mem_cons.1 h with rfl | h
    · rw [ha]; rfl
    · rw [mapM_none f l a h ha]
      cases f b <;> rfl

theorem findLoop_neg (name : String) : ∀ (cs : List Node) (i : Int), i < 0 → findLoop name cs i = none
  | [], _, _ => rfl
  | n :: ns, i, h => by
    rw [findLoop]
    split_ifs with h1 h2
    · omega
    · exact findLoop_neg name ns _ (by omega)
    · exact findLoop_neg name ns _ h

theorem findLoop_spec (name : String) : ∀ (cs : List Node) (i : Nat), findLoop name cs i = (cs.filter fun n => decide (n.nodeName = name))[i]?
  | [], _ => by simp [findLoop]
  | n :: ns, i => by
    rw [findLoop, List.filter_cons]
    by_cases h : n.nodeName = name
    · have hd : decide (n.nodeName = name) = true := by simpa using h
      rw [if_pos h, hd, if_pos rfl]
      cases i with
      | zero => simp
      | succ i =>
        rw [if_neg (by omega), show ((i + 1 : Nat) : Int) - 1 = (i : Int) by omega, findLoop_spec name ns i]
        simp
    · have hd : decide (n.nodeName = name) = false := by simpa using h
      rw [if_neg h, hd, if_neg (by decide), findLoop_spec name ns i]

theorem split_blanks (n : Nat) : splitGo [] (List.replicate n ' ') = [] := by
  induction n with
  | zero => rfl
  | succ n ih => rw [List.replicate_succ, splitGo, if_pos rfl, if_pos rfl, ih]

/-- single words -/
theorem splitGo_word (n : Nat) : ∀ (w cur : List Char), cur ++ w ≠ [] → (∀ c ∈ w, c ≠ ' ') → splitGo cur (w ++ List.replicate n ' ') = [cur ++ w]
  | [], cur, h, _ => by
    rw [List.append_nil] at h
    cases n with
    | zero => simp [splitGo, h]
    | succ n => rw [List.nil_append, List.replicate_succ, splitGo, if_pos rfl, if_neg h, split_blanks, List.append_nil]
  | c :: w, cur, _, hc => by
    rw [List.cons_append, splitGo, if_neg (hc c List.mem_cons_self), splitGo_word n w (cur ++ [c]) (by simp) (fun d hd => hc d (List.mem_cons_of_mem _ hd))]
    simp

theorem split_word (w : List Char) (h : w ≠ []) (hc : ∀ c ∈ w, c ≠ ' ') (n : Nat) : split (w ++ List.replicate n ' ') = [w] := splitGo_word n w [] h hc

end Verif.XmlHandling

namespace Verif.Props
open Verif.XmlHandling
open Verif.DataSet (Err)

/-- **C157, attributes.** Writing a dictionary into a node and reading it back gives for every key the last value that was written (transformed on writing and back on reading), and nothing for values `None`;
other attributes of the node stay as they are. -/
theorem C157_attributes (as : List (String × String)) (f g : String → String → String) (hgf : ∀ v k, g (f v k) k = v) (d : List (String × Option String)) (hd : (d.map Prod.fst).Nodup) (k : String) :
    getAttr (readAttrDict (writeAttrDict as f d) g) k = match d.lookup k with
      | some (some v) => some v
      | _ => (getAttr as k).map fun v => g v k := by
  rw [getAttr_read]
  induction d generalizing as with
  | nil => rfl
  | cons e d ih =>
    obtain ⟨k', v⟩ := e
    rw [List.map_cons, List.nodup_cons] at hd
    have hlook : d.lookup k' = none := by
      rw [List.lookup_eq_none_iff]
      intro p hp
      have : p.1 ≠ k' := fun h => hd.1 (List.mem_map.2 ⟨p, hp, h⟩)
      simpa using Ne.symm this
    rw [List.lookup_cons]
    cases v with
    | none =>
      rw [writeAttrDict, ih as hd.2]
      by_cases h : k = k'
      · subst h
        simp [hlook]
      · have : (k == k') = false := by simpa using h
        rw [this]
    | some v =>
      rw [writeAttrDict, ih _ hd.2, getAttr_set]
      by_cases h : k = k'
      · subst h
        simp [hlook, hgf]
      · have : (k == k') = false := by simpa using h
        rw [this, if_neg h]

example : readAttrDict (writeAttrDict [("a", "1"), ("z", "9")] (fun v _ => v ++ "!") [("a", some "2"), ("b", none), ("c", some "3")]) (fun v _ => v) = [("a", "2!"), ("z", "9"), ("c", "3!")] := by decide

/-- **C157, finding nodes.** findNode gives the child with this name and number, counting children of this name only; texts between the elements (line breaks, indentation) do not matter; new children come last. -/
theorem C157_find (n : String) (as : List (String × String)) (cs : List Node) (name : String) (hname : name ≠ "#text") (i : Nat) :
    findNode (.elem n as cs) name i = (cs.filter fun c => decide (c.nodeName = name))[i]? ∧
    findNode (.elem n as cs) name i = findNode (.elem n as (getChildrenOf (.elem n as cs))) name i ∧
    (∀ j : Int, j < 0 → findNode (.elem n as cs) name j = none) ∧
    findNode (newChild (.elem n as cs) name) name ((cs.filter fun c => decide (c.nodeName = name)).length : Nat) = some (.elem name [] []) ∧
    getChildrenOf (newChild (.elem n as cs) name) = getChildrenOf (.elem n as cs) ++ [.elem name [] []] := by
  have h1 : ∀ cs : List Node, ∀ i : Nat, findNode (.elem n as cs) name i = (cs.filter fun c => decide (c.nodeName = name))[i]? := fun cs i => findLoop_spec name cs i
  refine ⟨h1 cs i, ?_, fun j hj => findLoop_neg name cs j hj, ?_, ?_⟩
  · rw [h1, h1, getChildrenOf, Node.childNodes, List.filter_filter]
    congr 1
    refine List.filter_congr fun c _ => ?_
    cases c with
    | elem m _ _ => simp [Node.isElem]
    | text d => simp [Node.nodeName, Node.isElem, Ne.symm hname]
  · rw [newChild, h1, List.filter_append]
    simp [Node.nodeName]
  · simp [newChild, getChildrenOf, Node.childNodes, Node.isElem]

/-- **C157, finding by name (partial).** If all children with this tag have a name, findNamedNode gives the first one with the wanted name. What is missing: children without a name (see the negation). -/
theorem C157_named_partial (root : Node) (name nameattr : String) (h : ∀ c ∈ root.childNodes, c.nodeName = name → (getAttr c.attrs "name").isSome) :
    findNamedNode root name nameattr = .ok (root.childNodes.find? fun c => c.nodeName == name && getAttr c.attrs "name" == some nameattr) := by
  unfold findNamedNode
  generalize root.childNodes = cs at h ⊢
  induction cs with
  | nil => rfl
  | cons c cs ih =>
    have ih := ih (fun x hx => h x (List.mem_cons_of_mem _ hx))
    rw [namedLoop, List.find?_cons]
    by_cases hc : c.nodeName = name
    · rw [if_pos hc]
      have := h c List.mem_cons_self hc
      obtain ⟨v, hv⟩ := Option.isSome_iff_exists.1 this
      simp only [hv]
      by_cases hvn : v = nameattr
      · simp [hc, hvn]
      · have : (c.nodeName == name && some v == some nameattr) = false := by simp [hvn]
        rw [if_neg hvn, ih, this]
    · have : (c.nodeName == name && getAttr c.attrs "name" == some nameattr) = false := by simp [hc]
      rw [if_neg hc, ih, this]

example : ∀ c ∈ (Node.elem "PyBrain" [] [.text [], .elem "Network" [("name", "a")] []]).childNodes, c.nodeName = "Network" → (getAttr c.attrs "name").isSome := by
  simp [Node.childNodes, Node.nodeName, Node.attrs, getAttr]

/-- **C157 violated: nodes without a name.** If a child with the right tag has no name, finding any child behind it by name raises KeyError. -/
theorem C157_negation_named (n : String) (as bs : List (String × String)) (pre post cs : List Node) (name nameattr : String) (hpre : ∀ c ∈ pre, c.nodeName ≠ name) (hb : getAttr bs "name" = none) :
    findNamedNode (.elem n as (pre ++ .elem name bs cs :: post)) name nameattr = .error .keyError := by
  unfold findNamedNode
  rw [Node.childNodes]
  induction pre with
  | nil => simp [namedLoop, Node.nodeName, Node.attrs, hb]
  | cons c pre ih =>
    rw [List.cons_append, namedLoop, if_neg (hpre c List.mem_cons_self)]
    exact ih (fun x hx => hpre x (List.mem_cons_of_mem _ hx))

section
variable {K : Type}

/-- **C157 violated: lists of numbers.** A list of two or more numbers that was written cannot be read back: the commas between the numbers raise ValueError, however numbers are printed. -/
theorem C157_negation_list (fmt : Nat → K → List Char) (parse : List Char → Option K) (hfmt : ∀ p x, fmt p x ≠ []) (hparse : ∀ s : List Char, ',' ∈ s → parse s = none) (x y : K) (l : List K) (p : Nat) :
    readDoubles parse (writeDoubles fmt (x :: y :: l) p) = .error .valueError := by
  have hmem : ',' ∈ writeDoubles fmt (x :: y :: l) p := by
    unfold writeDoubles fListToString
    simp only [List.map_cons, joinComma]
    obtain ⟨c, cs, hcs⟩ := List.exists_cons_of_ne_nil (hfmt p x)
    rw [hcs]
    generalize joinComma _ = t
    have e : (List.drop 2 ('[' :: (ljust (p + 3) (c :: cs) ++ [',', ' '] ++ t) ++ [']'])) = cs ++ List.replicate (p + 3 - (c :: cs).length) ' ' ++ [',', ' '] ++ t ++ [']'] := by
      simp [ljust]
    rw [e, List.dropLast_concat]
    simp
  obtain ⟨w, hw, hcw⟩ := mem_split _ ',' hmem (by decide)
  unfold readDoubles
  rw [mapM_none parse _ w hw (hparse w hcw)]

/-- **C157 violated: single numbers.** Of a single number the first character is lost, so 12 is read as 2, and a number of one digit as nothing. -/
theorem C157_negation_single (fmt : Nat → K → List Char) (parse : List Char → Option K) (x : K) (p : Nat) (c : Char) (s : List Char) (hx : fmt p x = c :: s) (hs : ∀ d ∈ s, d ≠ ' ') :
    readDoubles parse (writeDoubles fmt [x] p) = if s = [] then .ok [] else match parse s with | none => .error .valueError | some y => .ok [y] := by
  have hw : writeDoubles fmt [x] p = s ++ List.replicate (p + 3 - (s.length + 1)) ' ' := by
    unfold writeDoubles fListToString
    simp only [List.map_cons, List.map_nil, joinComma, hx, ljust, List.cons_append, List.drop_succ_cons, List.drop_zero, List.length_cons]
    rw [List.dropLast_concat]
  rw [hw]
  unfold readDoubles
  by_cases h : s = []
  · subst h
    rw [List.nil_append, split, split_blanks, if_pos rfl]
    rfl
  · rw [split_word s h hs, if_neg h, List.mapM_cons, List.mapM_nil]
    cases parse s <;> rfl

end

example : (readDoubles (fun s => if s = ['2'] then some 2 else none) (writeDoubles (fun _ x => (Nat.repr x).toList) [12])).toOption = some [2] := by decide

end Verif.Props
