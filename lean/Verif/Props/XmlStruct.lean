import Verif.Model.Xode

/-!
# C164: XML structures are built and written as asked

The specification of the navigation is a document together with an address, the list of the
positions of the tags that lead to the current one.  The specification of the file is a reader of
XML: it keeps the tags that are open and fails if a tag is closed that is not open, or left open.
-/

namespace Verif.Xode

/-! ### Documents with an address -/

/-- A subtag is appended. -/
def addSubs (ts : List Tag) (t : Tag) : Tag := .node t.name t.attrs (t.subs ++ ts)

/-- The tag at an address is changed. -/
def changeAt : List Nat → (Tag → Tag) → Tag → Tag
  | [], g, t => g t
  | _ :: _, _, .leaf n a => .leaf n a
  | i :: p, g, .node n a ts => .node n a (ts.modify i (changeAt p g))

/-- The tag at an address. -/
def tagAt : List Nat → Tag → Option Tag
  | [], t => some t
  | i :: p, t => (t.subs[i]?).bind (tagAt p)

/-- A document and the address of the current tag. -/
structure Doc where
  tree : Tag
  address : List Nat

/-- The operations of users. -/
inductive Act where
  | insert (t : Tag)
  | insertNone
  | insertMulti (ts : List Tag)
  | up (steps : Nat)
  | top

/-- What the operations are to do: a tag is appended to the current one and becomes the current
tag; an empty list of subtags is made; several tags are appended; the current tag is left. -/
def Doc.act (d : Doc) : Act → Doc
  | .insert t =>
      { tree := changeAt d.address (addSubs [t]) d.tree,
        address := d.address ++ [((tagAt d.address d.tree).map fun c => c.subs.length).getD 0] }
  | .insertNone => { d with tree := changeAt d.address (addSubs []) d.tree }
  | .insertMulti ts => { d with tree := changeAt d.address (addSubs ts) d.tree }
  | .up steps => { d with address := d.address.take (d.address.length - steps) }
  | .top => { d with address := [] }

/-- The operations of the model. -/
def Cursor.act (c : Cursor) : Act → Cursor
  | .insert t => c.insertTag t
  | .insertNone => c.insertNone
  | .insertMulti ts => c.insertMulti ts
  | .up steps => c.up steps
  | .top => c.top

/-- The tags around a tag are put together. -/
def plug : List Frame → Tag → Tag
  | [], t => t
  | f :: st, t => plug st (.node f.name f.attrs (f.earlier ++ [t]))

/-- The address given by the tags around the current one. -/
def address : List Frame → List Nat
  | [] => []
  | f :: st => address st ++ [f.earlier.length]

/-- The document and address of a cursor. -/
def Cursor.doc (c : Cursor) : Doc := { tree := c.root, address := address c.stack }

theorem address_length (st : List Frame) : (address st).length = st.length := by
  induction st with
  | nil => rfl
  | cons f st ih => simp [address, ih]

theorem up_stack (n : Nat) : ∀ c : Cursor, (c.up n).stack = c.stack.drop n := by
  induction n with
  | zero => intro c; simp [Cursor.up]
  | succ n ih =>
    intro c
    rw [Cursor.up, ih]
    rcases c with ⟨t, st⟩
    cases st with
    | nil => simp [Cursor.upOne]
    | cons f st => simp [Cursor.upOne]

theorem up_plug (n : Nat) : ∀ c : Cursor, plug (c.up n).stack (c.up n).current =
    plug c.stack c.current := by
  induction n with
  | zero => intro c; simp [Cursor.up]
  | succ n ih =>
    intro c
    rw [Cursor.up, ih]
    rcases c with ⟨t, st⟩
    cases st with
    | nil => simp [Cursor.upOne]
    | cons f st => simp [Cursor.upOne, plug]

theorem root_eq (c : Cursor) : c.root = plug c.stack c.current := by
  have h := up_plug c.stack.length c
  rw [up_stack, List.drop_length] at h
  exact h

theorem changeAt_append (p q : List Nat) (g : Tag → Tag) : ∀ t : Tag,
    changeAt (p ++ q) g t = changeAt p (changeAt q g) t := by
  induction p with
  | nil => intro t; rfl
  | cons i p ih =>
    intro t
    cases t with
    | leaf n a => rfl
    | node n a ts =>
      simp only [List.cons_append, changeAt]
      congr 1
      exact congrArg (ts.modify i) (funext ih)

theorem tagAt_append (p q : List Nat) : ∀ t : Tag,
    tagAt (p ++ q) t = (tagAt p t).bind (tagAt q) := by
  induction p with
  | nil => intro t; rfl
  | cons i p ih =>
    intro t
    simp only [List.cons_append, tagAt]
    cases t.subs[i]? with
    | none => rfl
    | some s => exact ih s

theorem changeAt_last (n : String) (a : Attrs) (e : List Tag) (t : Tag) (g : Tag → Tag) :
    changeAt [e.length] g (.node n a (e ++ [t])) = .node n a (e ++ [g t]) := by
  simp only [changeAt]
  congr 1
  induction e with
  | nil => rfl
  | cons x e ih =>
    simp only [List.length_cons, List.cons_append, List.modify_succ_cons]
    rw [ih]

theorem changeAt_plug (st : List Frame) : ∀ (t : Tag) (g : Tag → Tag),
    changeAt (address st) g (plug st t) = plug st (g t) := by
  induction st with
  | nil => intro t g; rfl
  | cons f st ih =>
    intro t g
    rw [plug, address, changeAt_append, ih, changeAt_last, plug]

theorem tagAt_plug (st : List Frame) : ∀ t : Tag, tagAt (address st) (plug st t) = some t := by
  induction st with
  | nil => intro t; rfl
  | cons f st ih =>
    intro t
    rw [plug, address, tagAt_append, ih]
    simp [tagAt, Tag.subs]

theorem address_drop (st : List Frame) (n : Nat) :
    address (st.drop n) = (address st).take ((address st).length - n) := by
  induction st generalizing n with
  | nil => simp [address]
  | cons f st ih =>
    cases n with
    | zero => simp
    | succ n =>
      rw [List.drop_succ_cons, ih, address, List.take_append_of_le_length (by simp)]
      simp

theorem doc_act (c : Cursor) (a : Act) : (c.act a).doc = c.doc.act a := by
  cases a with
  | insert t =>
    simp only [Cursor.act, Cursor.doc, Doc.act, root_eq, tagAt_plug, changeAt_plug,
      Cursor.insertTag, plug, address, addSubs]
    rfl
  | insertNone =>
    simp [Cursor.act, Cursor.doc, Doc.act, root_eq, changeAt_plug, Cursor.insertNone, addSubs]
  | insertMulti ts =>
    simp [Cursor.act, Cursor.doc, Doc.act, root_eq, changeAt_plug, Cursor.insertMulti, addSubs]
  | up n =>
    have h := up_plug n c
    simp only [Cursor.act, Cursor.doc, Doc.act, root_eq, up_stack, address_drop] at h ⊢
    rw [h]
  | top =>
    have h := up_plug c.stack.length c
    simp only [Cursor.act, Cursor.doc, Doc.act, root_eq, Cursor.top, up_stack,
      List.drop_length, address] at h ⊢
    rw [h]

theorem doc_run (as : List Act) : ∀ c : Cursor,
    (as.foldl Cursor.act c).doc = as.foldl Doc.act c.doc := by
  induction as with
  | nil => intro c; rfl
  | cons a as ih => intro c; rw [List.foldl_cons, ih, doc_act, List.foldl_cons]

theorem current_at (c : Cursor) : tagAt c.doc.address c.doc.tree = some c.current := by
  simp only [Cursor.doc, root_eq]; exact tagAt_plug _ _

/-! ### Reading XML -/

/-- The three kinds of tags in an XML file. -/
inductive Piece where
  | start (name : String) (attrs : Attrs)
  | single (name : String) (attrs : Attrs)
  | stop (name : String)

/-- The attributes in XML: each after a blank. -/
def attrsText : Attrs → String
  | [] => ""
  | p :: as => " " ++ (p.1 ++ "=\"" ++ p.2 ++ "\"") ++ attrsText as

/-- The text of a piece in XML. -/
def Piece.text : Piece → String
  | .start n a => "<" ++ n ++ attrsText a ++ ">"
  | .single n a => "<" ++ n ++ attrsText a ++ "/>"
  | .stop n => "</" ++ n ++ ">"

/-- A reader of XML: the tags that are open, and the tags that were read in the innermost one.  A
single tag is read as a tag without subtags. -/
def reader : List Piece → List Frame → List Tag → Option (List Tag)
  | [], [], acc => some acc
  | [], _ :: _, _ => none
  | .single n a :: r, st, acc => reader r st (acc ++ [.leaf n a])
  | .start n a :: r, st, acc => reader r (⟨n, a, acc⟩ :: st) []
  | .stop _ :: _, [], _ => none
  | .stop n :: r, f :: st, acc =>
      if f.name = n then reader r st (f.earlier ++ [.node f.name f.attrs acc]) else none

mutual
/-- No tag without subtags is without attributes. -/
def NoBare : Tag → Prop
  | .leaf _ a => a ≠ []
  | .node _ _ ts => NoBareAll ts
/-- The same for all tags of a list. -/
def NoBareAll : List Tag → Prop
  | [] => True
  | t :: ts => NoBare t ∧ NoBareAll ts
end

mutual
/-- The pieces of a tag with their indentation, as they are written. -/
def pieces : Tag → Nat → List (Nat × Piece)
  | .leaf n a, d => [(d, if a = [] then .start n [] else .single n a)]
  | .node n a ts, d => (d, .start n a) :: (piecesAll ts (d + 1) ++ [(d, .stop n)])
/-- The pieces of the tags of a list. -/
def piecesAll : List Tag → Nat → List (Nat × Piece)
  | [], _ => []
  | t :: ts, d => pieces t d ++ piecesAll ts d
end

/-- A line of the file: the indentation, a piece and the end of the line. -/
def lineOf (q : Nat × Piece) : String := tabs q.1 ++ q.2.text ++ "\n"

theorem intercalate_attrs : ∀ (p : String × String) (as : Attrs),
    " " ++ " ".intercalate ((p :: as).map attrText) = attrsText (p :: as)
  | p, [] => by simp [attrsText, attrText]
  | p, q :: as => by
      have h := intercalate_attrs q as
      have hcons : " ".intercalate ((p :: q :: as).map attrText) =
          attrText p ++ (" " ++ " ".intercalate ((q :: as).map attrText)) := by
        simp only [List.map_cons]
        rw [String.intercalate_cons_cons]
        simp only [String.append_assoc]
      rw [hcons, h]
      simp [attrsText, attrText, String.append_assoc]

theorem nbAttributes_eq (t : Tag) : nbAttributes t = t.attrs.length := by
  cases t <;> simp [nbAttributes, Tag.hasSubtag]

theorem startLine_node (n : String) (a : Attrs) (ts : List Tag) (d : Nat) :
    startLine (.node n a ts) d = lineOf (d, .start n a) := by
  simp only [startLine, nbAttributes_eq, Tag.attrs, Tag.name, Tag.hasSubtag, if_true]
  cases a with
  | nil => simp [lineOf, Piece.text, attrsText, String.append_assoc]
  | cons p as =>
    rw [if_pos (by simp)]
    simp only [lineOf, Piece.text, ← intercalate_attrs, String.append_assoc]

theorem startLine_leaf (n : String) (a : Attrs) (d : Nat) :
    startLine (.leaf n a) d = lineOf (d, if a = [] then .start n [] else .single n a) := by
  simp only [startLine, nbAttributes_eq, Tag.attrs, Tag.name, Tag.hasSubtag]
  cases a with
  | nil => simp [lineOf, Piece.text, attrsText, String.append_assoc]
  | cons p as =>
    rw [if_pos (by simp), if_neg (by simp)]
    simp only [lineOf, Piece.text, ← intercalate_attrs, String.append_assoc]
    rfl

mutual
theorem write_pieces : ∀ (t : Tag) (d : Nat), write t d = (pieces t d).map lineOf
  | .leaf n a, d => by simp only [write, pieces, startLine_leaf, List.map_cons, List.map_nil]
  | .node n a ts, d => by
      simp only [write, pieces, startLine_node, List.map_cons, List.map_append, List.map_nil,
        writeAll_pieces ts (d + 1)]
      simp [lineOf, Piece.text, String.append_assoc]
theorem writeAll_pieces : ∀ (ts : List Tag) (d : Nat),
    writeAll ts d = (piecesAll ts d).map lineOf
  | [], d => by simp [writeAll, piecesAll]
  | t :: ts, d => by
      simp only [writeAll, piecesAll, List.map_append, write_pieces t d, writeAll_pieces ts d]
end

mutual
theorem reader_pieces : ∀ (t : Tag) (d : Nat) (r : List Piece) (st : List Frame)
    (acc : List Tag), NoBare t →
    reader ((pieces t d).map Prod.snd ++ r) st acc = reader r st (acc ++ [t])
  | .leaf n a, d, r, st, acc, h => by
      simp only [NoBare] at h
      simp [pieces, h, reader]
  | .node n a ts, d, r, st, acc, h => by
      simp only [NoBare] at h
      simp only [pieces, List.map_cons, List.map_append, List.map_nil, List.cons_append,
        List.append_assoc, reader]
      rw [readerAll_pieces ts (d + 1) _ _ _ h]
      simp [reader]
theorem readerAll_pieces : ∀ (ts : List Tag) (d : Nat) (r : List Piece) (st : List Frame)
    (acc : List Tag), NoBareAll ts →
    reader ((piecesAll ts d).map Prod.snd ++ r) st acc = reader r st (acc ++ ts)
  | [], d, r, st, acc, _ => by simp [piecesAll]
  | t :: ts, d, r, st, acc, h => by
      simp only [NoBareAll] at h
      simp only [piecesAll, List.map_append, List.append_assoc]
      rw [reader_pieces t d _ _ _ h.1, readerAll_pieces ts d _ _ _ h.2]
      simp
end

/-- The number of starts less the number of stops. -/
def balance : List Piece → Int
  | [] => 0
  | .start _ _ :: r => balance r + 1
  | .single _ _ :: r => balance r
  | .stop _ :: r => balance r - 1

theorem balance_append (p q : List Piece) : balance (p ++ q) = balance p + balance q := by
  induction p with
  | nil => simp [balance]
  | cons x p ih => cases x <;> simp only [List.cons_append, balance, ih] <;> omega

theorem reader_balance : ∀ (ps : List Piece) (st : List Frame) (acc r : List Tag),
    reader ps st acc = some r → balance ps + st.length = 0 := by
  intro ps
  induction ps with
  | nil =>
    intro st acc r h
    cases st with
    | nil => simp [balance]
    | cons f st => simp [reader] at h
  | cons p ps ih =>
    intro st acc r h
    cases p with
    | start n a =>
      have := ih _ _ _ h
      simp only [balance, List.length_cons] at this ⊢
      push_cast at this
      omega
    | single n a => exact ih _ _ _ h
    | stop n =>
      cases st with
      | nil => simp [reader] at h
      | cons f st =>
        simp only [reader] at h
        split at h
        · have := ih _ _ _ h
          simp only [balance, List.length_cons] at this ⊢
          push_cast
          omega
        · exact absurd h (by simp)

mutual
theorem balance_nonneg : ∀ (t : Tag) (d : Nat), 0 ≤ balance ((pieces t d).map Prod.snd)
  | .leaf n a, d => by
      by_cases h : a = [] <;> simp [pieces, h, balance]
  | .node n a ts, d => by
      have := balanceAll_nonneg ts (d + 1)
      simp only [pieces, List.map_cons, List.map_append, List.map_nil, balance, balance_append]
      omega
theorem balanceAll_nonneg : ∀ (ts : List Tag) (d : Nat),
    0 ≤ balance ((piecesAll ts d).map Prod.snd)
  | [], d => by simp [piecesAll, balance]
  | t :: ts, d => by
      have h1 := balance_nonneg t d
      have h2 := balanceAll_nonneg ts d
      simp only [piecesAll, List.map_append, balance_append]
      omega
end

mutual
theorem balance_bare : ∀ (t : Tag) (d : Nat), ¬ NoBare t →
    0 < balance ((pieces t d).map Prod.snd)
  | .leaf n a, d, h => by
      simp only [NoBare, ne_eq, not_not] at h
      simp [pieces, h, balance]
  | .node n a ts, d, h => by
      simp only [NoBare] at h
      have := balanceAll_bare ts (d + 1) h
      simp only [pieces, List.map_cons, List.map_append, List.map_nil, balance, balance_append]
      omega
theorem balanceAll_bare : ∀ (ts : List Tag) (d : Nat), ¬ NoBareAll ts →
    0 < balance ((piecesAll ts d).map Prod.snd)
  | [], d, h => by simp [NoBareAll] at h
  | t :: ts, d, h => by
      simp only [NoBareAll, not_and_or] at h
      have h1 := balance_nonneg t d
      have h2 := balanceAll_nonneg ts d
      simp only [piecesAll, List.map_append, balance_append]
      rcases h with h | h
      · have := balance_bare t d h
        omega
      · have := balanceAll_bare ts d h
        omega
end

end Verif.Xode

namespace Verif.Props

open Verif.Xode

/-- **C164 (building).**  After any sequence of insertions and moves, starting from a new
structure, the document is the one that the operations describe, and the current tag is the one at
the address that the operations describe. -/
theorem C164_navigation (name : String) (attr : Option Attrs) (as : List Act) :
    (as.foldl Cursor.act (newStruct name attr)).doc =
        as.foldl Doc.act { tree := newTag name attr, address := [] } ∧
      tagAt (as.foldl Doc.act { tree := newTag name attr, address := [] }).address
          (as.foldl Doc.act { tree := newTag name attr, address := [] }).tree =
        some (as.foldl Cursor.act (newStruct name attr)).current := by
  have h := doc_run as (newStruct name attr)
  have h0 : (newStruct name attr).doc = { tree := newTag name attr, address := [] } := rfl
  rw [h0] at h
  exact ⟨h, h ▸ current_at _⟩

/-- Three tags are inserted; the address tells where the cursor is. -/
example : ([.insert (newTag "space" none), .insert (newTag "body" (some [("name", "a")])), .up 1,
    .insert (newTag "body" (some [("name", "b")]))].foldl Cursor.act
      (newStruct "world")).doc.address = [0, 1] := by decide +kernel

/-- **C164 (names and attributes).**  A new tag has the given name and the given attributes, if
no attribute is called `myName`. -/
theorem C164_new (name : String) (attr : Attrs) (h : ∀ p ∈ attr, p.1 ≠ "myName") :
    newTag name (some attr) = .leaf name attr ∧ newTag name none = .leaf name [] := by
  have h1 : attr.lookup "myName" = none := by
    rw [List.lookup_eq_none_iff]
    intro p hp
    exact bne_iff_ne.2 (Ne.symm (h p hp))
  have h2 : (attr.filter fun p => p.1 ≠ "myName") = attr := by
    rw [List.filter_eq_self]
    intro p hp
    simpa using h p hp
  refine ⟨?_, rfl⟩
  simp only [newTag, Option.getD_some, h1, h2, Option.getD_none]

example : ∀ p ∈ ([("name", "a"), ("x", "1")] : Attrs), p.1 ≠ "myName" := by decide

/-- **C164 (an attribute can change the name), false.**  An attribute called `myName` is not
kept as an attribute; it replaces the name of the tag. -/
theorem C164_negation_name :
    newTag "body" (some [("myName", "x")]) = .leaf "x" [] := by rfl

/-- **C164 (writing).**  What is written for a structure in which every tag without subtags has an
attribute is XML that is read as the same structure; every tag is on a line of its own. -/
theorem C164_write (t : Tag) (h : NoBare t) :
    ∃ ps : List (Nat × Piece), write t 0 = ps.map lineOf ∧
      reader (ps.map Prod.snd) [] [] = some [t] := by
  refine ⟨pieces t 0, write_pieces t 0, ?_⟩
  have := reader_pieces t 0 [] [] [] h
  simpa [reader] using this

example : NoBare (.node "world" [] [.leaf "body" [("name", "a")], .node "fixed" [] []]) := by
  simp [NoBare, NoBareAll]

/-- **C164 (writing), false for tags with neither attributes nor subtags.**  They are written as
`<name>` and never closed: every structure that contains one is written as pieces that no reader
accepts. -/
theorem C164_negation_bare (t : Tag) (h : ¬ NoBare t) :
    ∃ ps : List (Nat × Piece), write t 0 = ps.map lineOf ∧
      reader (ps.map Prod.snd) [] [] = none := by
  refine ⟨pieces t 0, write_pieces t 0, ?_⟩
  cases hr : reader ((pieces t 0).map Prod.snd) [] [] with
  | none => rfl
  | some r =>
    have h1 := reader_balance _ _ _ _ hr
    have h2 := balance_bare t 0 h
    simp only [List.length_nil, Nat.cast_zero, add_zero] at h1
    omega

/-- A new file without bodies is such a structure. -/
example : ¬ NoBare ((newStruct "world").insert "space").root ∧
    write ((newStruct "world").insert "space").root 0 =
      ["<world>\n", "\t<space>\n", "</world>\n"] := by
  constructor
  · simp [root_eq, newStruct, newTag, Cursor.insert, Cursor.insertTag, plug, NoBare, NoBareAll,
      Tag.subs]
  · decide +kernel

/-- **C164 (special characters), false.**  Values are not escaped: a value with a quotation mark is
written in the same way as two attributes. -/
theorem C164_negation_escape :
    write (.leaf "body" [("name", "a\" b=\"c")]) 0 = write (.leaf "body" [("name", "a"), ("b", "c")]) 0 := by
  decide +kernel

/-- **C164 (finding tags), false.**  Looking for a tag by its name raises an `AttributeError`
whenever there are subtags to look at; moving down to a tag and scaling always do. -/
theorem C164_negation_find (c : Cursor) (t : Tag) (name : String) (text : String → String) :
    downTo c name = .error .attributeError ∧ scale c text = .error .attributeError ∧
      (t.subs ≠ [] → hasSubtagNamed t name = .error .attributeError ∧
        getSubtag t name = .error .attributeError) := by
  refine ⟨rfl, rfl, ?_⟩
  intro h
  cases t with
  | leaf n a => exact absurd rfl h
  | node n a ts =>
    cases ts with
    | nil => exact absurd rfl h
    | cons x xs => exact ⟨rfl, rfl⟩

end Verif.Props
