import Verif.Lemmas.DataSetRead
/-
Property theorems C01-C04 (pybrain/datasets/dataset.py).
-/
namespace Verif.Props
open Verif.DataSet Verif.Py

variable {K : Type}

/-! ### C01  Linked fields stay in lockstep -/

/-- A concrete history on a fresh dataset: two linked fields with 1 and 2 columns. -/
def c01Setup : List (Op Nat) := [.addField "in" 1, .addField "out" 2, .linkFields ["in", "out"]]

/-- **C01, negation (1).** A linked append whose second row has the wrong width raises, but its first
row has already been stored: the linked fields are left with 1 and 0 rows. -/
theorem C01_negation_appendLinked :
    let d := run DS.empty (c01Setup ++ [.appendLinked [[7], [1, 2, 3]]])
    (step (run DS.empty c01Setup) (.appendLinked [[7], [1, 2, 3]])).2 = some Err.valueError ∧
    d.link = ["in", "out"] ∧ d.getField "in" = some [[7]] ∧ d.getField "out" = some [] ∧ ¬ d.Lockstep := by
  refine ⟨by decide, by decide, by decide, by decide, ?_⟩
  rintro ⟨n, hn⟩
  have h1 := hn "in" (by decide)
  have h2 := hn "out" (by decide)
  have e1 : (run DS.empty (c01Setup ++ [.appendLinked [[7], [1, 2, 3]]])).getField "in" = some [[7]] := by decide
  have e2 : (run DS.empty (c01Setup ++ [.appendLinked [[7], [1, 2, 3]]])).getField "out" = some [] := by decide
  rw [e1] at h1; rw [e2] at h2
  simp at h1 h2; omega

/-- **C01, negation (2).** `setField` on a linked field is accepted with any number of rows. -/
theorem C01_negation_setField :
    let d := run DS.empty (c01Setup ++ [.setField "in" 1 [[1], [2], [3]]])
    d.link = ["in", "out"] ∧ (d.getField "in").map List.length = some 3 ∧
    (d.getField "out").map List.length = some 0 := by decide

/-- **C01, negation (3).** A name linked twice receives two rows per linked append. -/
theorem C01_negation_duplicate :
    let d := run DS.empty [.addField "a" 1, .addField "b" 1, .linkFields ["a", "a", "b"],
      .appendLinked [[1], [2], [3]]]
    (d.getField "a").map List.length = some 2 ∧ (d.getField "b").map List.length = some 1 := by decide

/-- **C01 (partial).** Every history in which each call respects the linking (`Respects`: it does not
replace or convert a linked field, links distinct names, and appends linked rows of fitting width)
leaves all linked fields with equally many rows. Missing for the full property: the three kinds of
call excluded by `Respects`, for which the negations above show that it is false. Calls that raise are
included in the histories. -/
theorem C01_lockstep_partial [Zero K] (ops : List (Op K)) (h : RespectsAll DS.empty ops = true) :
    (run (DS.empty : DS K) ops).Lockstep :=
  run_lockstep ops DS.empty empty_wf (by simp [DS.empty]) ⟨0, by simp [DS.empty]⟩ h

/-- non-vacuity: a history with growth, a rejected call, unlinking, relinking and clearing -/
example : RespectsAll (DS.empty : DS Nat) (c01Setup ++ [.appendLinked [[7], [1, 2]], .append "in" [3],
    .appendLinked [[8], [5]], .appendLinked [[9]], .appendLinked [[9], [1, 1]], .unlinkFields (some ["in"]),
    .append "in" [3], .linkFields ["in", "out"], .clear false]) = true := by
  decide

/-- **C01, failing calls.** In every state reachable by any history, a call that raises leaves every
field's rows and the links unchanged, unless it is an `appendLinked` with the right number of
arguments. -/
theorem C01_failed_call_no_effect [Zero K] (ops : List (Op K)) (op : Op K) (e : Err)
    (he : (step (run DS.empty ops) op).2 = some e)
    (hop : (∀ args, op ≠ .appendLinked args) ∨ e = .assertion) :
    (∀ l, (step (run DS.empty ops) op).1.getField l = (run (DS.empty : DS K) ops).getField l) ∧
    (step (run DS.empty ops) op).1.link = (run (DS.empty : DS K) ops).link := by
  have h := step_err_view _ (run_wf DS.empty empty_wf ops) op e he hop
  refine ⟨fun l => ?_, h.2⟩
  rw [DS.getField_eq_view, DS.getField_eq_view, h.1]

/-! ### C02  Appended rows are read back exactly -/

/-- **C02, refinement (partial).** For every history of calls that uses neither `convertField` nor a
field named `""`, the rows and columns every field shows, and the links, are exactly those of the
buffer-free table specification `Spec.run`: over-allocation, growth and stale padding are invisible.
Missing for the full property: `convertField` (see `C02_negation_convertField`) and the empty
field name (see `C02_negation_emptyName`). -/
theorem C02_refines_tables_partial [Zero K] (ops : List (Op K)) (h : ∀ op ∈ ops, op.Plain) (l : String) :
    (run DS.empty ops).getField l = ((Spec.run Spec.Tables.empty ops).table l).map Prod.snd ∧
    (run (DS.empty : DS K) ops).link = (Spec.run Spec.Tables.empty ops).link := by
  have he : (DS.empty : DS K).NoEmptyName := rfl
  have h := run_refines ops DS.empty empty_wf he h
  have h0 : (DS.empty : DS K).tables = Spec.Tables.empty := rfl
  rw [h0] at h
  rw [DS.getField_eq_view, ← h]
  exact ⟨rfl, rfl⟩

/-- non-vacuity: 5 appends force two buffer growths; the specification shows the 5 rows -/
example :
    let ops : List (Op Nat) := [.addField "a" 2, .append "a" [1, 2], .append "a" [3, 4], .append "a" [5, 6],
      .append "a" [7, 8], .append "a" [9]]
    (∀ op ∈ ops, op.Plain) ∧ (run DS.empty ops).getField "a" = some [[1, 2], [3, 4], [5, 6], [7, 8], [9, 9]] ∧
    ((run DS.empty ops).get "a").map (fun f => f.buf.length) = some 6 := by
  refine ⟨by simp [Op.Plain], by decide, by decide⟩

/-- **C02, appending.** In every reachable state (any history at all), appending to an unlinked field
either raises and changes no field, or adds the row (broadcast to the field's width) at its end and
changes no other field. -/
theorem C02_append [Zero K] (ops : List (Op K)) (l : String) (row : List K) :
    let d := run (DS.empty : DS K) ops
    let d' := (d.append l row).1
    ((d.append l row).2 ≠ none ∧ ∀ q, d'.getField q = d.getField q) ∨
    ((d.append l row).2 = none ∧ l ∉ d.link ∧ ∃ dim r, broadcast dim row = some r ∧
      ∃ old, d.getField l = some old ∧ d'.getField l = some (old ++ [r]) ∧
      ∀ q, q ≠ l → d'.getField q = d.getField q) := by
  intro d d'
  have hd : d.WF := run_wf DS.empty empty_wf ops
  simp only [d', DS.append]
  split
  · left; simp
  · rename_i hl
    have hc := DS.appendUnlinked_cases d hd l row
    rcases hc.2.2.2 with ⟨h1, h2⟩ | ⟨h1, dim, rows, r, hv, hb, hq⟩
    · left
      refine ⟨h1, fun q => ?_⟩
      rw [DS.getField_eq_view, DS.getField_eq_view, h2]
    · right
      refine ⟨h1, hl, dim, r, hb, rows, ?_, ?_, ?_⟩
      · rw [DS.getField_eq_view, hv]; rfl
      · rw [DS.getField_eq_view, hq l]; simp
      · intro q hne
        rw [DS.getField_eq_view, DS.getField_eq_view, hq q]; simp [Ne.symm hne]

/-- **C02, random access.** In every reachable state whose linked fields are in lockstep with `n` rows,
`getLinked(i)` for `0 ≤ i < n` returns the `i`-th row of each linked field, and for `i ≥ n` it
raises IndexError. -/
theorem C02_getLinked [Zero K] (ops : List (Op K)) (n : Nat)
    (hlink : (run (DS.empty : DS K) ops).link ≠ [])
    (h : ∀ l ∈ (run (DS.empty : DS K) ops).link, ((run DS.empty ops).getField l).map List.length = some n) (i : Nat) :
    let d := run (DS.empty : DS K) ops
    (i < n → ∃ rs, (d.getLinked (some i)).2 = .ok rs ∧
        d.link.mapM (fun l => (d.getField l).bind (fun t => t[i]?)) = some rs) ∧
    (n ≤ i → (d.getLinked (some i)).2 = .error .indexError) := by
  intro d
  have hd : d.WF := run_wf DS.empty empty_wf ops
  constructor
  · intro hi
    obtain ⟨rs, h1, h2⟩ := getLinked_ok d hd hlink n h (some i) i rfl hi
    exact ⟨rs, by rw [h1], h2⟩
  · intro hi
    unfold DS.getLinked
    rw [if_neg hlink, getLength_of_lockstep d hd hlink n h]
    have : ((i : Int) ≥ (n : Int)) := by omega
    simp [this]

example :
    let d := run (DS.empty : DS Nat) (c01Setup ++ [.appendLinked [[7], [1, 2]], .appendLinked [[8], [5, 6]], .appendLinked [[9], [0, 0]]])
    d.link ≠ [] ∧ (∀ l ∈ d.link, (d.getField l).map List.length = some 3) ∧
    (d.getLinked (some 2)).2 = .ok [[9], [0, 0]] := by
  refine ⟨by decide, ?_, by rfl⟩
  intro l hl
  have : l = "in" ∨ l = "out" := by simpa using (show l ∈ ["in", "out"] from hl)
  rcases this with rfl | rfl <;> decide

/-- **C02, negation (convertField).** Converting the element type of a field makes the padding visible:
one row was appended, two rows are shown afterwards. -/
theorem C02_negation_convertField :
    let d := run (DS.empty : DS Nat) [.addField "a" 1, .append "a" [7]]
    d.getField "a" = some [[7]] ∧ (d.convertField "a").1.getField "a" = some [[7], [0]] := by decide

/-- **C02, negation (negative index).** A negative index is not rejected and reads the padding of the
buffer: after three linked appends, `getLinked(-1)` returns a stale copy of row 1 instead of raising or returning the last row. -/
theorem C02_negation_negativeIndex :
    let d := run (DS.empty : DS Nat) [.addField "a" 1, .linkFields ["a"], .appendLinked [[7]], .appendLinked [[8]],
      .appendLinked [[9]]]
    d.getField "a" = some [[7], [8], [9]] ∧ (d.getLinked (some (-1))).2 = .ok [[8]] := by
  refine ⟨by decide, by rfl⟩

/-- **C02, negation (empty name).** The field named `""` cannot be appended to while another field is
linked: the wrong arrays are enlarged and the store fails. -/
theorem C02_negation_emptyName :
    let d := run (DS.empty : DS Nat) [.addField "" 1, .addField "a" 1, .linkFields ["a"]]
    (d.append "" [7]).2 = some Err.indexError := by decide

/-! ### C03  Cursor iteration -/

/-- **C03.** In every reachable state whose linked fields are in lockstep with `n` rows, iterating the
dataset (`reset`, then `getLinked` until `endOfData`) terminates, yields exactly `n` tuples, the `j`-th
being row `j` of every linked field, ends with `endOfData` true, and one more `getLinked` raises. -/
theorem C03_iteration [Zero K] (ops : List (Op K)) (n : Nat)
    (hlink : (run (DS.empty : DS K) ops).link ≠ [])
    (h : ∀ l ∈ (run (DS.empty : DS K) ops).link, ((run DS.empty ops).getField l).map List.length = some n) :
    let d := run (DS.empty : DS K) ops
    ∃ rows d', (d.reset).drain (n + 1) = some (rows, d') ∧ rows.length = n ∧
      (∀ j, j < n → d.link.mapM (fun l => (d.getField l).bind (fun t => t[j]?)) = rows[j]?) ∧
      d'.endOfData = some true ∧ (d'.getLinked none).2 = .error .indexError ∧
      (∀ l, d'.getField l = d.getField l) := by
  intro d
  have hd : d.WF := run_wf DS.empty empty_wf ops
  obtain ⟨rows, h1, h2, h3⟩ := drain_ok n n d.reset hd hlink h 0 (by omega) rfl (n + 1) (by omega)
  refine ⟨rows, _, h1, h2, ?_, ?_, ?_, fun l => rfl⟩
  · intro j hj
    have := h3 j hj
    simp only [Nat.zero_add] at this
    exact this
  · have := getLength_of_lockstep { d.reset with index := (n : Int) } hd hlink n h
    unfold DS.endOfData
    rw [this]; simp
  · have := getLength_of_lockstep { d.reset with index := (n : Int) } hd hlink n h
    unfold DS.getLinked
    rw [if_neg (show ¬ ({ d.reset with index := (n : Int) } : DS K).link = [] from hlink), this]
    simp

example : ((run (DS.empty : DS Nat) (c01Setup ++ [.appendLinked [[7], [1, 2]], .appendLinked [[8], [5, 6]]])).reset.drain 3).map Prod.fst
    = some [[[7], [1, 2]], [[8], [5, 6]]] := by decide

/-! ### C04  Batches -/

/-- **C04, plain batches.** In every reachable state, for a field whose number of rows is the dataset's
length, and batch size `n ≥ 1`, `batches` yields chunks whose concatenation is the field; none is empty,
none is longer than `n`, and all but the last have exactly `n` rows. -/
theorem C04_batches [Zero K] (ops : List (Op K)) (l : String) (n : Nat) (hn : 1 ≤ n) (rows : List (List K))
    (hl : (run DS.empty ops).getField l = some rows)
    (hlen : (run (DS.empty : DS K) ops).getLength = some rows.length) :
    ∃ bs, (run DS.empty ops).batches l n none = .ok bs ∧ bs.flatten = rows ∧
      (∀ b ∈ bs, 0 < b.length ∧ b.length ≤ n) ∧
      (∀ i, i + 1 < bs.length → ∀ b, bs[i]? = some b → b.length = n) := by
  have hd := run_wf (DS.empty : DS K) empty_wf ops
  refine ⟨_, batches_eq _ l n (by omega) rows hd hl hlen, ?_, ?_, ?_⟩
  · rw [flatten_chunks]
    apply List.take_of_length_le
    have := Nat.lt_div_mul_add (a := rows.length + n - 1) (show 0 < n by omega)
    omega
  · intro b hb
    obtain ⟨i, hi, rfl⟩ := List.mem_map.1 hb
    simp only [List.mem_range] at hi
    simp only [List.length_drop, List.length_take]
    have h1 : (i + 1) * n ≤ (rows.length + n - 1) := by
      have := Nat.mul_le_of_le_div n _ _ (show i + 1 ≤ (rows.length + n - 1) / n by omega)
      exact this
    have e : (i + 1) * n = i * n + n := by rw [Nat.add_mul, Nat.one_mul]
    omega
  · intro i hi b hb
    simp only [List.length_map, List.length_range] at hi
    rw [List.getElem?_map, List.getElem?_range (by omega)] at hb
    simp only [Option.map_some, Option.some.injEq] at hb
    subst hb
    simp only [List.length_drop, List.length_take]
    have h1 : (i + 1 + 1) * n ≤ (rows.length + n - 1) := Nat.mul_le_of_le_div n _ _ hi
    have e : (i + 1) * n = i * n + n := by rw [Nat.add_mul, Nat.one_mul]
    have e2 : (i + 1 + 1) * n = i * n + n + n := by rw [Nat.add_mul, Nat.one_mul, e]
    omega

/-- **C04, permuted batches.** With a permutation `π` of the batch numbers the same batches come out in
the order of `π`; in particular they are a rearrangement of the plain batches. -/
theorem C04_batches_permutation (d : DS K) (l : String) (n : Nat) (bs : List (List (List K)))
    (h : d.batches l n none = .ok bs) (π : List Nat) (hπ : π.Perm (List.range bs.length)) :
    ∃ bs', d.batches l n (some π) = .ok bs' ∧ bs'.Perm bs ∧ π.mapM (fun i => bs[i]?) = some bs' := by
  have hm : ∀ π : List Nat, (∀ i ∈ π, i < bs.length) → π.mapM (fun i => bs[i]?) = some (π.map (fun i => bs[i]?.getD [])) := by
    intro π hπ
    induction π with
    | nil => rfl
    | cons i rest ih =>
      rw [List.mapM_cons, ih (fun j hj => hπ j (by simp [hj]))]
      have := hπ i (by simp)
      simp [this]
  have hmem : ∀ i ∈ π, i < bs.length := fun i hi => by simpa using (hπ.mem_iff.1 hi)
  refine ⟨_, by rw [batches_perm_eq d l n bs π h, hm π hmem], ?_, hm π hmem⟩
  have h2 : (List.range bs.length).map (fun i => bs[i]?.getD []) = bs := by
    apply List.ext_getElem
    · simp
    · intro i h1 h2; simp at h1; simp [h1]
  have := hπ.map (fun i => bs[i]?.getD [])
  rw [h2] at this
  exact this

/-- **C04, error branch.** Batch size 0 raises (`divmod` by zero). -/
theorem C04_errors (d : DS K) (l : String) (len : Nat) (hlen : d.getLength = some len) (perm : Option (List Nat)) :
    d.batches l 0 perm = .error .zeroDivision := by
  unfold DS.batches; rw [hlen]; simp

/-- **C04, randomBatches.** The batches of `randomBatches` cover the data exactly once; but the order is
never random: it is always the plain order (`random.shuffle` returns `None`). -/
theorem C04_randomBatches_not_random (d : DS K) (l : String) (n : Nat) :
    d.randomBatches l n = d.batches l n none := rfl

example :
    let d := run (DS.empty : DS Nat) [.addField "a" 1, .linkFields ["a"], .appendLinked [[7]], .appendLinked [[8]], .appendLinked [[9]]]
    d.batches "a" 2 none = .ok [[[7], [8]], [[9]]] ∧ d.batches "a" 2 (some [1, 0]) = .ok [[[9]], [[7], [8]]] := by
  refine ⟨by rfl, by rfl⟩

/-! ### C53  Length of a dataset without linked fields -/

/-- **C53, negation.** Two unlinked fields, `a` with two rows and `b` with one: `len` is 1, although the
longest field has 2 rows (the code takes the field whose NAME is largest). -/
theorem C53_negation :
    let d := run (DS.empty : DS Nat) [.addField "a" 1, .addField "b" 1, .append "a" [5], .append "a" [6], .append "b" [7]]
    d.link = [] ∧ d.getField "a" = some [[5], [6]] ∧ d.getField "b" = some [[7]] ∧ d.getLength = some 1 := by decide

/-- **C53 (partial).** In every reachable state without linked fields, `len` is 0 if there are no fields
and otherwise the number of rows of one of the fields; so it is the longest length when all fields have
equally many rows. Missing: it need not be the longest (negation). -/
theorem C53_length_partial [Zero K] (ops : List (Op K)) (h : (run (DS.empty : DS K) ops).link = []) :
    let d := run (DS.empty : DS K) ops
    (d.fields = [] ∧ d.getLength = some 0) ∨
    ∃ l rows, d.getField l = some rows ∧ d.getLength = some rows.length ∧ ∀ p ∈ d.fields, p.1 ≤ l := by
  intro d
  have hd : d.WF := run_wf _ empty_wf ops
  have hmax : ∀ (ls : List String) (m : String), (ls.foldl (fun m x => if m < x then x else m) m) ∈ m :: ls ∧
      ∀ x ∈ m :: ls, x ≤ ls.foldl (fun m x => if m < x then x else m) m := by
    intro ls
    induction ls with
    | nil => intro m; simp
    | cons a ls ih =>
      intro m
      rw [List.foldl_cons]
      by_cases hlt : m < a
      · simp only [hlt, if_true]
        refine ⟨List.mem_cons_of_mem _ (ih a).1, ?_⟩
        intro x hx
        rcases List.mem_cons.1 hx with rfl | hx
        · exact String.le_trans (String.not_lt.1 (String.lt_asymm hlt)) ((ih a).2 a (by simp))
        · exact (ih a).2 x hx
      · simp only [hlt, if_false]
        refine ⟨?_, ?_⟩
        · rcases List.mem_cons.1 (ih m).1 with h | h
          · rw [h]; simp
          · exact List.mem_cons_of_mem _ (List.mem_cons_of_mem _ h)
        · intro x hx
          rcases List.mem_cons.1 hx with rfl | hx
          · exact (ih x).2 x (by simp)
          · rcases List.mem_cons.1 hx with rfl | hx
            · exact String.le_trans (String.not_lt.1 hlt) ((ih m).2 m (by simp))
            · exact (ih m).2 x (by simp [hx])
  have hdg : ∀ (fs : List (String × Field K)) (l : String), l ∈ fs.map Prod.fst → ∃ f, dget fs l = some f := by
    intro fs l
    induction fs with
    | nil => simp
    | cons p fs ih =>
      intro hl
      unfold dget
      by_cases hp : p.1 = l
      · simp [hp]
      · simp only [hp, if_false]
        apply ih
        simpa [Ne.symm hp] using hl
  have hgl : d.getLength = (match maxLabel (d.fields.map Prod.fst) with
      | none => some 0
      | some m => (d.get m).map Field.fin) := by
    unfold DS.getLength
    rw [show d.link = [] from h]
    cases maxLabel (d.fields.map Prod.fst) <;> rfl
  cases hf : d.fields with
  | nil => left; refine ⟨rfl, ?_⟩; rw [hgl, hf]; rfl
  | cons p fs =>
    right
    rw [hf] at hgl
    simp only [List.map_cons, maxLabel] at hgl
    have hm := hmax (fs.map Prod.fst) p.1
    obtain ⟨f, hfm⟩ := hdg d.fields _ (by rw [hf]; exact hm.1)
    refine ⟨_, f.rows, by simp only [DS.getField, DS.get]; rw [hfm]; rfl, ?_, ?_⟩
    · rw [hgl]
      simp only [DS.get, hfm, Option.map_some, Option.some.injEq]
      exact ((hd.1 _ f hfm).rows_length).symm
    · intro q hq
      exact hm.2 q.1 (by rw [← List.map_cons]; exact List.mem_map.2 ⟨q, hq, rfl⟩)

example : (run (DS.empty : DS Nat) [.addField "a" 1, .append "a" [5]]).link = [] := by decide

end Verif.Props
