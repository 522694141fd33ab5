import Verif.Lemmas.DataSet
import Verif.Spec.DataSet
/- The DataSet model refines the table specification (helper lemmas). -/
namespace Verif.DataSet
open Verif.Py

variable {K : Type}

/-- Abstraction map: forget buffers, end markers and the cursor. -/
def DS.tables (d : DS K) : Spec.Tables K := { table := d.view, link := d.link }

/-- Calls for which the code meets the table specification: no `convertField` and no field named by
the empty string. -/
def Op.Plain : Op K → Prop
  | .convertField _ => False
  | .addField l _ => l ≠ ""
  | .setField l _ _ => l ≠ ""
  | _ => True

def DS.NoEmptyName (d : DS K) : Prop := d.get "" = none

theorem Tables.ext {t u : Spec.Tables K} (h1 : ∀ q, t.table q = u.table q) (h2 : t.link = u.link) : t = u := by
  cases t; cases u; simp at h1 h2; simp [h2]; funext q; exact h1 q

theorem tables_put (d : DS K) (l : String) (f : Field K) :
    (d.put l f).tables = d.tables.set l f.dim f.rows := by
  apply Tables.ext
  · intro q; simp only [DS.tables, Spec.Tables.set, DS.view_put]
    by_cases h : l = q
    · simp [h]
    · simp [h, Ne.symm h]
  · rfl

theorem view_some_iff (d : DS K) (l : String) (p : Nat × List (List K)) :
    d.view l = some p ↔ ∃ f, d.get l = some f ∧ f.dim = p.1 ∧ f.rows = p.2 := by
  unfold DS.view
  cases h : d.get l with
  | none => simp
  | some f => cases p; simp

theorem appendUnlinked_refines [Zero K] (d : DS K) (hd : d.WF) (he : d.NoEmptyName) (l : String) (row : List K) :
    (d.tables.push l row = none → (d.appendUnlinked l row).2 ≠ none ∧ (d.appendUnlinked l row).1.tables = d.tables) ∧
    (∀ t, d.tables.push l row = some t → (d.appendUnlinked l row).2 = none ∧ (d.appendUnlinked l row).1.tables = t) := by
  have hc := DS.appendUnlinked_cases d hd l row
  unfold Spec.Tables.push
  have ht : d.tables.table l = d.view l := rfl
  rw [ht]
  rcases hc.2.2.2 with ⟨herr, hv⟩ | ⟨hok, dim, rows, r, hv, hb, hq⟩
  · have hnone : ∀ p, d.view l = some p → broadcast p.1 row = none := by
      intro p hp
      obtain ⟨f, hf, h1, h2⟩ := (view_some_iff d l p).1 hp
      cases hb : broadcast p.1 row with
      | none => rfl
      | some r =>
        exfalso
        apply herr
        apply DS.appendUnlinked_ok d hd l row (Or.inl _) f hf r (by rw [h1]; exact hb)
        intro h0; subst h0; rw [he] at hf; simp at hf
    have htab : (d.appendUnlinked l row).1.tables = d.tables := Tables.ext hv hc.2.1
    cases hp : d.view l with
    | none => simp [herr, htab]
    | some p => obtain ⟨a, b⟩ := p; have := hnone _ hp; simp only at this; simp [this, herr, htab]
  · rw [hv]; simp only [hb]
    refine ⟨by simp, ?_⟩
    rintro t ⟨rfl⟩
    refine ⟨hok, Tables.ext ?_ hc.2.1⟩
    intro q
    show DS.view _ q = _
    rw [hq q]
    by_cases h : l = q
    · simp [Spec.Tables.set, h]
    · simp [Spec.Tables.set, h, Ne.symm h, DS.tables]

theorem view_none_iff (d : DS K) (l : String) : d.view l = none ↔ d.get l = none := by
  simp [DS.view]

theorem appendUnlinked_noEmpty [Zero K] (d : DS K) (hd : d.WF) (he : d.NoEmptyName) (l : String) (row : List K) :
    (d.appendUnlinked l row).1.NoEmptyName := by
  have hc := DS.appendUnlinked_cases d hd l row
  unfold DS.NoEmptyName at *
  rw [← view_none_iff] at *
  rcases hc.2.2.2 with ⟨_, hv⟩ | ⟨_, dim, rows, r, hv, hb, hq⟩
  · rw [hv]; exact he
  · rw [hq]; split
    · rename_i h; subst h; rw [he] at hv; simp at hv
    · exact he

theorem appendAll_refines [Zero K] (xs : List (String × List K)) (d : DS K) (hd : d.WF) (he : d.NoEmptyName) :
    (d.appendAll xs).1.tables = d.tables.pushAll xs ∧ (d.appendAll xs).1.NoEmptyName := by
  induction xs generalizing d with
  | nil => simp [DS.appendAll, Spec.Tables.pushAll, he]
  | cons p rest ih =>
    obtain ⟨l, row⟩ := p
    have hr := appendUnlinked_refines d hd he l row
    have hc := DS.appendUnlinked_cases d hd l row
    have hn := appendUnlinked_noEmpty d hd he l row
    unfold DS.appendAll Spec.Tables.pushAll
    cases hp : d.tables.push l row with
    | none =>
      obtain ⟨h1, h2⟩ := hr.1 hp
      cases ha : d.appendUnlinked l row with
      | mk d1 e =>
        rw [ha] at h1 h2 hn
        cases e with
        | none => simp at h1
        | some e => exact ⟨h2, hn⟩
    | some t =>
      obtain ⟨h1, h2⟩ := hr.2 t hp
      cases ha : d.appendUnlinked l row with
      | mk d1 e =>
        rw [ha] at h1 h2 hn hc
        simp only at h1 h2
        subst h1
        simp only
        rw [← h2]
        exact ih d1 hc.1 hn

theorem foldl_erase_eq (ls lk : List String) :
    ls.foldl (fun lk l => if l ∈ lk then lk.erase l else lk) lk = ls.foldl List.erase lk := by
  have : (fun (lk : List String) l => if l ∈ lk then lk.erase l else lk) = List.erase := by
    funext lk l
    split
    · rfl
    · rename_i h; exact (List.erase_of_not_mem h).symm
  rw [this]

theorem linkFields_loop_complete (d : DS K) (n : Nat) (whole ls : List String)
    (h : ∀ l ∈ ls, d.fieldLen l = some n) : (DS.linkFields.loop d n whole ls).2 = none := by
  induction ls with
  | nil => rfl
  | cons l rest ih =>
    unfold DS.linkFields.loop
    rw [h l (by simp)]
    simp only [ne_eq, not_true_eq_false, if_false]
    exact ih (fun q hq => h q (by simp [hq]))

theorem tables_len (d : DS K) (l : String) : d.tables.len l = d.fieldLen l := by
  rw [DS.fieldLen_eq_view]; rfl

theorem step_refines [Zero K] (d : DS K) (hd : d.WF) (he : d.NoEmptyName) (op : Op K) (hp : op.Plain) :
    (step d op).1.tables = Spec.step d.tables op ∧ (step d op).1.NoEmptyName := by
  cases op with
  | addField l n =>
    refine ⟨tables_put d l _, ?_⟩
    simp only [step, DS.addField, DS.NoEmptyName, DS.get_put]
    simp only [Op.Plain] at hp
    simp [hp]; exact he
  | setField l n rows =>
    simp only [step, DS.setField, Spec.step, List.all_eq_true, decide_eq_true_eq]
    simp only [Op.Plain] at hp
    split
    · refine ⟨?_, ?_⟩
      · rw [tables_put]; simp [Field.rows]
      · simp only [DS.NoEmptyName, DS.get_put]; simp [hp]; exact he
    · exact ⟨rfl, he⟩
  | linkFields ls =>
    simp only [step, Spec.step]
    have h := DS.linkFields_spec d ls
    cases ls with
    | nil => simp [DS.linkFields, he]
    | cons l0 rest =>
      simp only [tables_len]
      by_cases hc : d.fieldLen l0 ≠ none ∧ ∀ l ∈ l0 :: rest, d.fieldLen l = d.fieldLen l0
      · rw [if_pos hc]
        have hok : (d.linkFields (l0 :: rest)).2 = none := by
          unfold DS.linkFields
          cases h0 : d.fieldLen l0 with
          | none => exact absurd h0 hc.1
          | some n =>
            simp only [h0]
            apply linkFields_loop_complete
            intro l hl; rw [hc.2 l hl, h0]
        rw [(h.1 hok).1]
        exact ⟨rfl, he⟩
      · rw [if_neg hc]
        have hne : (d.linkFields (l0 :: rest)).2 ≠ none := by
          intro hok
          apply hc
          obtain ⟨_, n, hn⟩ := h.1 hok
          refine ⟨by rw [hn l0 (by simp)]; simp, ?_⟩
          intro l hl; rw [hn l hl, hn l0 (by simp)]
        rw [h.2 hne]; exact ⟨rfl, he⟩
  | unlinkFields ls =>
    refine ⟨?_, by cases ls <;> exact he⟩
    apply Tables.ext
    · intro q; cases ls <;> rfl
    · cases ls with
      | none => rfl
      | some ls => exact foldl_erase_eq ls d.link
  | append l row =>
    simp only [step, DS.append, Spec.step]
    have hl : d.tables.link = d.link := rfl
    rw [hl]
    split
    · exact ⟨rfl, he⟩
    · refine ⟨?_, appendUnlinked_noEmpty d hd he l row⟩
      have hr := appendUnlinked_refines d hd he l row
      cases hpush : d.tables.push l row with
      | none => exact (hr.1 hpush).2
      | some t => exact (hr.2 t hpush).2
  | appendLinked args =>
    simp only [step, DS.appendLinked, Spec.step]
    have hl : d.tables.link = d.link := rfl
    rw [hl]
    split
    · exact appendAll_refines _ d hd he
    · exact ⟨rfl, he⟩
  | getLinked i =>
    have h := d.getLinked_fst_fields i
    have : (step d (.getLinked i)).1 = (d.getLinked i).1 := by
      simp only [step]; cases hg : d.getLinked i with
      | mk a b => cases b <;> rfl
    rw [this]
    refine ⟨Tables.ext (fun q => DS.view_of_fields_eq h.1 q) h.2, ?_⟩
    unfold DS.NoEmptyName DS.get at *; rw [h.1]; exact he
  | convertField l => exact absurd hp (by simp [Op.Plain])
  | reset => exact ⟨rfl, he⟩
  | clear u =>
    simp only [step, Spec.step]
    refine ⟨Tables.ext ?_ rfl, ?_⟩
    · intro q
      show DS.view _ q = _
      unfold DS.view
      rw [DS.get_clear]
      have h2 : d.tables.table q = (d.get q).map (fun f => (f.dim, f.rows)) := rfl
      have h3 : d.tables.link = d.link := rfl
      simp only [h2, h3]
      cases d.get q with
      | none => simp
      | some f =>
        by_cases hc : (d.link = [] ∨ u = true) ∨ q ∈ d.link
        · simp [hc, Field.rows]
        · simp [hc]
    · unfold DS.NoEmptyName at *; rw [DS.get_clear, he]; rfl
  | compact =>
    refine ⟨Tables.ext (fun q => DS.view_compact d q) rfl, ?_⟩
    simp only [step]; unfold DS.NoEmptyName at *; rw [DS.get_compact, he]; rfl

theorem run_refines [Zero K] (ops : List (Op K)) (d : DS K) (hd : d.WF) (he : d.NoEmptyName)
    (hp : ∀ op ∈ ops, op.Plain) : (run d ops).tables = Spec.run d.tables ops := by
  induction ops generalizing d with
  | nil => rfl
  | cons op ops ih =>
    have h := step_refines d hd he op (hp op (by simp))
    unfold run Spec.run
    rw [ih _ (step_link_sub d op hd) h.2 (fun o ho => hp o (by simp [ho])), h.1]

end Verif.DataSet
