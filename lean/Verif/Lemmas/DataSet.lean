import Verif.Model.DataSet
/- Helper lemmas about the DataSet model. -/
namespace Verif.DataSet
open Verif.Py

variable {K : Type}

/-- Well-formed field: the end marker is inside the buffer and all rows have `dim` columns. -/
def Field.WF (f : Field K) : Prop := f.fin ≤ f.buf.length ∧ ∀ r ∈ f.buf, r.length = f.dim

/-- Well-formed dataset: all fields are, and every linked label has a field. -/
def DS.WF (d : DS K) : Prop :=
  (∀ l f, d.get l = some f → f.WF) ∧ (∀ l ∈ d.link, ∃ f, d.get l = some f)

theorem Field.WF.rows_length {f : Field K} (h : f.WF) : f.rows.length = f.fin := by
  simp [Field.rows, h.1]

theorem Field.grow_dim [Zero K] (f : Field K) : f.grow.dim = f.dim := rfl
theorem Field.grow_fin [Zero K] (f : Field K) : f.grow.fin = f.fin := rfl

theorem Field.grow_length [Zero K] (f : Field K) : f.grow.buf.length = (f.buf.length + 1) * 2 := by
  simp [Field.grow]

theorem Field.grow_getElem? [Zero K] (f : Field K) (i : Nat) (h : i < f.buf.length) :
    f.grow.buf[i]? = f.buf[i]? := by
  have h2 : i < (f.buf.length + 1) * 2 := by omega
  simp [Field.grow, h2, Nat.mod_eq_of_lt h, h]

theorem Field.grow_rows [Zero K] (f : Field K) (h : f.WF) : f.grow.rows = f.rows := by
  apply List.ext_getElem?
  intro i
  unfold Field.rows
  rw [Field.grow_fin]
  by_cases hi : i < f.fin
  · rw [List.getElem?_take_of_lt hi, List.getElem?_take_of_lt hi]
    exact f.grow_getElem? i (by have := h.1; omega)
  · rw [List.getElem?_eq_none (by simp; omega), List.getElem?_eq_none (by simp; omega)]

theorem Field.grow_wf [Zero K] (f : Field K) (h : f.WF) : f.grow.WF := by
  constructor
  · rw [Field.grow_length, Field.grow_fin]; have := h.1; omega
  · intro r hr
    simp only [Field.grow, List.mem_map, List.mem_range] at hr
    obtain ⟨i, _, rfl⟩ := hr
    rw [show f.grow.dim = f.dim from rfl]
    cases hb : f.buf[i % f.buf.length]? with
    | none => simp
    | some x => simpa using h.2 x (List.mem_of_getElem? hb)

theorem DS.get_put (d : DS K) (l q : String) (f : Field K) :
    (d.put l f).get q = if l = q then some f else d.get q := by
  simp [DS.get, DS.put, dget_dset]

theorem DS.get_resize [Zero K] (d : DS K) (l q : String) :
    (d.resize l).get q = (d.get q).map (fun f =>
      if (if l ≠ "" then (decide (q = l)) else if d.link ≠ [] then decide (q ∈ d.link) else true)
      then f.grow else f) := by
  unfold DS.get DS.resize
  simp only
  rw [dget_map d.fields (fun k f => if (if l ≠ "" then (fun k => decide (k = l))
    else if d.link ≠ [] then (fun k => decide (k ∈ d.link)) else fun _ => true) k then f.grow else f) q]
  congr 1
  funext f
  by_cases h1 : l = "" <;> by_cases h2 : d.link = [] <;> simp [h1, h2]

/-- Rows are unaffected by a resize. -/
theorem DS.rows_resize [Zero K] (d : DS K) (hd : d.WF) (l q : String) :
    ((d.resize l).get q).map (fun f => (f.dim, f.rows)) = (d.get q).map (fun f => (f.dim, f.rows)) := by
  rw [DS.get_resize]
  cases h : d.get q with
  | none => rfl
  | some f =>
    simp only [Option.map_some, Option.some.injEq]
    generalize (if l ≠ "" then (decide (q = l)) else if d.link ≠ [] then decide (q ∈ d.link) else true) = b
    cases b
    · rfl
    · simp only [if_true]; rw [Field.grow_rows f (hd.1 q f h), Field.grow_dim]

theorem DS.resize_link [Zero K] (d : DS K) (l : String) : (d.resize l).link = d.link := rfl
theorem DS.resize_index [Zero K] (d : DS K) (l : String) : (d.resize l).index = d.index := rfl

theorem DS.resize_wf [Zero K] (d : DS K) (hd : d.WF) (l : String) : (d.resize l).WF := by
  constructor
  · intro q f hq
    rw [DS.get_resize] at hq
    cases h : d.get q with
    | none => simp [h] at hq
    | some g =>
      simp only [h, Option.map_some, Option.some.injEq] at hq
      subst hq
      have hg := hd.1 q g h
      generalize (if l ≠ "" then (decide (q = l)) else if d.link ≠ [] then decide (q ∈ d.link) else true) = b
      cases b
      · exact hg
      · exact Field.grow_wf g hg
  · intro q hq
    obtain ⟨f, hf⟩ := hd.2 q hq
    rw [DS.get_resize, hf]
    exact ⟨_, rfl⟩

theorem broadcast_length (dim : Nat) (row r : List K) (h : broadcast dim row = some r) :
    r.length = dim := by
  unfold broadcast at h
  split at h
  · simp_all
  · split at h
    · simp at h; subst h; simp
    · simp at h

/-- The user-visible content of a field: number of columns and rows. -/
def DS.view (d : DS K) (l : String) : Option (Nat × List (List K)) :=
  (d.get l).map (fun f => (f.dim, f.rows))

theorem DS.put_wf (d : DS K) (hd : d.WF) (l : String) (f : Field K) (hf : f.WF) : (d.put l f).WF := by
  constructor
  · intro q g hq
    rw [DS.get_put] at hq
    split at hq
    · simp at hq; subst hq; exact hf
    · exact hd.1 q g hq
  · intro q hq
    rw [DS.get_put]
    split
    · exact ⟨f, rfl⟩
    · exact hd.2 q hq

theorem DS.view_put (d : DS K) (l q : String) (f : Field K) :
    (d.put l f).view q = if l = q then some (f.dim, f.rows) else d.view q := by
  unfold DS.view; rw [DS.get_put]; split <;> simp

/-- What one `_appendUnlinked` does, in all cases. -/
theorem DS.appendUnlinked_cases [Zero K] (d : DS K) (hd : d.WF) (l : String) (row : List K) :
    (d.appendUnlinked l row).1.WF ∧ (d.appendUnlinked l row).1.link = d.link ∧
    (d.appendUnlinked l row).1.index = d.index ∧
    (((d.appendUnlinked l row).2 ≠ none ∧ ∀ q, (d.appendUnlinked l row).1.view q = d.view q) ∨
     ((d.appendUnlinked l row).2 = none ∧ ∃ dim rows r, d.view l = some (dim, rows) ∧
        broadcast dim row = some r ∧
        ∀ q, (d.appendUnlinked l row).1.view q = if l = q then some (dim, rows ++ [r]) else d.view q)) := by
  unfold DS.appendUnlinked
  cases h0 : d.get l with
  | none => simp [hd]
  | some f0 =>
    simp only
    generalize hd1 : (if f0.buf.length ≤ f0.fin then d.resize l else d) = d1
    have hwf1 : d1.WF := by subst hd1; split; exact DS.resize_wf d hd l; exact hd
    have hlink1 : d1.link = d.link := by subst hd1; split <;> rfl
    have hidx1 : d1.index = d.index := by subst hd1; split <;> rfl
    have hview1 : ∀ q, d1.view q = d.view q := by
      intro q; subst hd1; split
      · exact DS.rows_resize d hd l q
      · rfl
    cases h1 : d1.get l with
    | none => simp [hwf1, hlink1, hidx1, hview1]
    | some f =>
      simp only
      have hf := hwf1.1 l f h1
      by_cases hlt : f.fin < f.buf.length
      · simp only [hlt, if_true]
        cases hb : broadcast f.dim row with
        | none => simp [hwf1, hlink1, hidx1, hview1]
        | some r =>
          simp only
          have hv : d.view l = some (f.dim, f.rows) := by rw [← hview1 l]; simp [DS.view, h1]
          refine ⟨?_, hlink1, hidx1, Or.inr ⟨trivial, f.dim, f.rows, r, hv, hb, ?_⟩⟩
          · apply DS.put_wf _ hwf1
            constructor
            · simp; omega
            · intro x hx
              rcases List.mem_or_eq_of_mem_set hx with hx | hx
              · exact hf.2 x hx
              · subst hx; exact broadcast_length _ _ _ hb
          · intro q
            rw [DS.view_put]
            split
            · simp only [Field.rows]
              congr 2
              rw [List.take_add_one, List.take_set_of_le (Nat.le_refl _)]
              simp [hlt]
            · exact hview1 q
      · simp only [hlt, if_false]
        refine ⟨hwf1, hlink1, hidx1, Or.inl ⟨by simp, hview1⟩⟩

/-- `_appendUnlinked` succeeds on an existing field when the row fits, except for the field named
`""` while other fields are linked. -/
theorem DS.appendUnlinked_ok [Zero K] (d : DS K) (hd : d.WF) (l : String) (row : List K)
    (hl : l ≠ "" ∨ d.link = [] ∨ l ∈ d.link) (f : Field K) (hf : d.get l = some f)
    (r : List K) (hb : broadcast f.dim row = some r) :
    (d.appendUnlinked l row).2 = none := by
  unfold DS.appendUnlinked
  rw [hf]
  simp only
  by_cases hc : f.buf.length ≤ f.fin
  · simp only [hc, if_true]
    have hg : (d.resize l).get l = some f.grow := by
      rw [DS.get_resize, hf]
      by_cases h1 : l = ""
      · by_cases h2 : d.link = []
        · simp [h1, h2]
        · have h3 : l ∈ d.link := by
            rcases hl with h | h | h
            · exact absurd h1 h
            · exact absurd h h2
            · exact h
          subst h1; simp [h3]
      · simp [h1]
    rw [hg]
    have hwf := (hd.1 l f hf).1
    have : f.grow.fin < f.grow.buf.length := by
      rw [Field.grow_length, Field.grow_fin]; omega
    simp [this, Field.grow_dim, hb]
  · simp only [hc, if_false, hf]
    have : f.fin < f.buf.length := by omega
    simp [this, hb]

theorem DS.fieldLen_eq_view (d : DS K) (l : String) :
    d.fieldLen l = (d.view l).map (fun p => p.2.length) := by
  simp [DS.fieldLen, DS.view, Function.comp_def]

theorem DS.getField_eq_view (d : DS K) (l : String) : d.getField l = (d.view l).map Prod.snd := by
  simp [DS.getField, DS.view, Function.comp_def]

/-- `linkFields` changes at most the link list; it succeeds only with equal lengths. -/
theorem DS.linkFields_loop (d : DS K) (n : Nat) (whole ls : List String) :
    ((DS.linkFields.loop d n whole ls).2 = none →
      (DS.linkFields.loop d n whole ls).1 = { d with link := whole } ∧ ∀ l ∈ ls, d.fieldLen l = some n) ∧
    ((DS.linkFields.loop d n whole ls).2 ≠ none → (DS.linkFields.loop d n whole ls).1 = d) := by
  induction ls with
  | nil => simp [DS.linkFields.loop]
  | cons l rest ih =>
    unfold DS.linkFields.loop
    cases h : d.fieldLen l with
    | none => simp
    | some m =>
      by_cases hm : m = n
      · subst hm; simp only [ne_eq, not_true_eq_false, if_false]
        refine ⟨fun h2 => ⟨(ih.1 h2).1, ?_⟩, ih.2⟩
        intro q hq
        rcases List.mem_cons.1 hq with rfl | hq
        · exact h
        · exact (ih.1 h2).2 q hq
      · simp [hm]

theorem DS.linkFields_spec (d : DS K) (ls : List String) :
    ((d.linkFields ls).2 = none →
      (d.linkFields ls).1 = { d with link := ls } ∧ ∃ n, ∀ l ∈ ls, d.fieldLen l = some n) ∧
    ((d.linkFields ls).2 ≠ none → (d.linkFields ls).1 = d) := by
  unfold DS.linkFields
  cases ls with
  | nil => simp
  | cons l0 rest =>
    simp only
    cases h : d.fieldLen l0 with
    | none => simp
    | some n =>
      have := DS.linkFields_loop d n (l0 :: rest) (l0 :: rest)
      exact ⟨fun h => ⟨(this.1 h).1, n, (this.1 h).2⟩, this.2⟩

theorem DS.get_clear (d : DS K) (u : Bool) (q : String) :
    (d.clear u).get q = (d.get q).map (fun f =>
      if (d.link = [] ∨ u) ∨ q ∈ d.link then { f with buf := [], fin := 0 } else f) := by
  unfold DS.get DS.clear
  simp only
  exact dget_map d.fields (fun k f => if (d.link = [] ∨ u) ∨ k ∈ d.link then { f with buf := [], fin := 0 } else f) q

theorem DS.get_compact (d : DS K) (q : String) :
    (d.compact).get q = (d.get q).map (fun f =>
      { f with buf := f.rows.take (f.fin + 1), fin := (f.rows.take (f.fin + 1)).length }) := by
  unfold DS.get DS.compact
  simp only
  exact dget_map d.fields (fun _ f => { f with buf := f.rows.take (f.fin + 1), fin := (f.rows.take (f.fin + 1)).length }) q

theorem DS.view_compact (d : DS K) (q : String) : d.compact.view q = d.view q := by
  unfold DS.view; rw [DS.get_compact]
  cases d.get q with
  | none => rfl
  | some f =>
    simp only [Option.map_some, Option.some.injEq, Prod.mk.injEq, true_and]
    show (f.rows.take (f.fin + 1)).take (f.rows.take (f.fin + 1)).length = f.rows
    rw [List.take_length]
    simp only [Field.rows, List.take_take]
    congr 1; omega

theorem foldl_erase_sublist (ls : List String) (lk : List String) :
    (ls.foldl (fun lk l => if l ∈ lk then lk.erase l else lk) lk).Sublist lk := by
  induction ls generalizing lk with
  | nil => simp
  | cons l rest ih =>
    simp only [List.foldl_cons]
    split
    · exact (ih _).trans List.erase_sublist
    · exact ih _

theorem DS.unlinkFields_link (d : DS K) (ls : Option (List String)) :
    (d.unlinkFields ls).link.Sublist d.link := by
  cases ls with
  | none => simp [DS.unlinkFields]
  | some ls => exact foldl_erase_sublist ls d.link

theorem DS.unlinkFields_fields (d : DS K) (ls : Option (List String)) :
    (d.unlinkFields ls).fields = d.fields := by
  cases ls <;> rfl

theorem DS.getLinked_fst_fields (d : DS K) (i : Option Int) :
    (d.getLinked i).1.fields = d.fields ∧ (d.getLinked i).1.link = d.link := by
  unfold DS.getLinked
  split
  · simp
  · split
    · simp
    · dsimp only; split <;> simp

theorem DS.view_of_fields_eq {d e : DS K} (h : d.fields = e.fields) (q : String) : d.view q = e.view q := by
  simp [DS.view, DS.get, h]

theorem DS.WF_of_eq {d e : DS K} (h : d.fields = e.fields) (hl : ∀ l ∈ d.link, l ∈ e.link) (he : e.WF) : d.WF := by
  constructor
  · intro q f hq; exact he.1 q f (by simpa [DS.get, h] using hq)
  · intro q hq
    obtain ⟨f, hf⟩ := he.2 q (hl q hq)
    exact ⟨f, by simpa [DS.get, h] using hf⟩

theorem DS.appendAll_wf [Zero K] (d : DS K) (hd : d.WF) (xs : List (String × List K)) :
    (d.appendAll xs).1.WF ∧ (d.appendAll xs).1.link = d.link ∧ (d.appendAll xs).1.index = d.index := by
  induction xs generalizing d with
  | nil => simp [DS.appendAll, hd]
  | cons p rest ih =>
    obtain ⟨l, row⟩ := p
    have hc := DS.appendUnlinked_cases d hd l row
    unfold DS.appendAll
    cases hr : d.appendUnlinked l row with
    | mk d1 e =>
      rw [hr] at hc
      cases e with
      | none =>
        have := ih d1 hc.1
        exact ⟨this.1, this.2.1.trans hc.2.1, this.2.2.trans hc.2.2.1⟩
      | some e => exact ⟨hc.1, hc.2.1, hc.2.2.1⟩

theorem DS.clear_wf (d : DS K) (hd : d.WF) (u : Bool) : (d.clear u).WF := by
  constructor
  · intro q f hq
    rw [DS.get_clear] at hq
    simp only [Option.map_eq_some_iff] at hq
    obtain ⟨g, hg, rfl⟩ := hq
    split
    · exact ⟨by simp, by simp⟩
    · exact hd.1 q g hg
  · intro q hq
    obtain ⟨f, hf⟩ := hd.2 q hq
    rw [DS.get_clear, hf]; exact ⟨_, rfl⟩

theorem step_link_sub [Zero K] (d : DS K) (op : Op K) (hd : d.WF) : (step d op).1.WF := by
  cases op with
  | addField l n => exact DS.put_wf d hd l _ ⟨by simp, by simp⟩
  | setField l n rows =>
    simp only [step, DS.setField]
    split
    · rename_i h
      exact DS.put_wf d hd l _ ⟨by simp, by simpa using h⟩
    · exact hd
  | linkFields ls =>
    simp only [step]
    have h := DS.linkFields_spec d ls
    by_cases he : (d.linkFields ls).2 = none
    · obtain ⟨h1, n, h2⟩ := h.1 he
      rw [h1]
      refine ⟨hd.1, ?_⟩
      intro q hq
      have := h2 q hq
      simp only [DS.fieldLen, Option.map_eq_some_iff] at this
      obtain ⟨f, hf, _⟩ := this
      exact ⟨f, hf⟩
    · rw [h.2 he]; exact hd
  | unlinkFields ls =>
    exact DS.WF_of_eq (d.unlinkFields_fields ls) (fun q hq => (d.unlinkFields_link ls).subset hq) hd
  | append l row =>
    simp only [step, DS.append]
    split
    · exact hd
    · exact (DS.appendUnlinked_cases d hd l row).1
  | appendLinked args =>
    simp only [step, DS.appendLinked]
    split
    · exact (DS.appendAll_wf d hd _).1
    · exact hd
  | getLinked i =>
    have h := d.getLinked_fst_fields i
    have : (step d (.getLinked i)).1 = (d.getLinked i).1 := by
      simp only [step]; cases hg : d.getLinked i with
      | mk a b => cases b <;> rfl
    rw [this]
    exact DS.WF_of_eq h.1 (fun q hq => h.2 ▸ hq) hd
  | convertField l =>
    simp only [step, DS.convertField]
    cases h : d.get l with
    | none => exact hd
    | some f => exact DS.put_wf d hd l _ ⟨by simp, (hd.1 l f h).2⟩
  | reset => exact DS.WF_of_eq (e := d) rfl (fun _ h => h) hd
  | clear u => exact DS.clear_wf d hd u
  | compact =>
    simp only [step]
    constructor
    · intro q f hq
      rw [DS.get_compact] at hq
      simp only [Option.map_eq_some_iff] at hq
      obtain ⟨g, hg, rfl⟩ := hq
      refine ⟨by simp, ?_⟩
      intro r hr
      exact (hd.1 q g hg).2 r (List.mem_of_mem_take (List.mem_of_mem_take hr))
    · intro q hq
      obtain ⟨f, hf⟩ := hd.2 q hq
      rw [DS.get_compact, hf]; exact ⟨_, rfl⟩

theorem empty_wf : (DS.empty : DS K).WF := by
  constructor
  · intro l f h; simp [DS.empty, DS.get, dget] at h
  · intro l h; simp [DS.empty] at h

theorem run_wf [Zero K] (d : DS K) (hd : d.WF) (ops : List (Op K)) : (run d ops).WF := by
  induction ops generalizing d with
  | nil => exact hd
  | cons op ops ih => exact ih _ (step_link_sub d op hd)

end Verif.DataSet
