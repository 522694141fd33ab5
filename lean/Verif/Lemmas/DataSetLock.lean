import Verif.Lemmas.DataSetRefine
/- Lockstep, cursor and batch lemmas for the DataSet model. -/
namespace Verif.DataSet
open Verif.Py

variable {K : Type}

/-- All linked fields exist and have the same number of rows. -/
def DS.Lockstep (d : DS K) : Prop :=
  ∃ n, ∀ l ∈ d.link, (d.getField l).map List.length = some n

theorem fieldLen_eq (d : DS K) (l : String) : d.fieldLen l = (d.getField l).map List.length := by
  simp [DS.fieldLen, DS.getField, Function.comp_def]

/-- Effect of a successful run of the `appendLinked` loop over distinct labels. -/
theorem appendAll_ok [Zero K] (xs : List (String × List K)) (d : DS K) (hd : d.WF)
    (hnd : (xs.map Prod.fst).Nodup) (hlink : ∀ p ∈ xs, p.1 ∈ d.link)
    (hfit : ∀ p ∈ xs, ∃ f r, d.get p.1 = some f ∧ broadcast f.dim p.2 = some r) :
    (d.appendAll xs).2 = none ∧
    (∀ q, q ∉ xs.map Prod.fst → (d.appendAll xs).1.view q = d.view q) ∧
    (∀ p ∈ xs, ∃ dim rows r, d.view p.1 = some (dim, rows) ∧ broadcast dim p.2 = some r ∧
        (d.appendAll xs).1.view p.1 = some (dim, rows ++ [r])) := by
  induction xs generalizing d with
  | nil => simp [DS.appendAll]
  | cons p rest ih =>
    obtain ⟨l, row⟩ := p
    obtain ⟨f, r, hf, hb⟩ := hfit (l, row) (by simp)
    have hok := DS.appendUnlinked_ok d hd l row (Or.inr (Or.inr (hlink (l, row) (by simp)))) f hf r hb
    have hc := DS.appendUnlinked_cases d hd l row
    unfold DS.appendAll
    cases ha : d.appendUnlinked l row with
    | mk d1 e =>
      rw [ha] at hok hc
      simp only at hok
      subst hok
      simp only
      rcases hc.2.2.2 with ⟨h, _⟩ | ⟨_, dim, rows, r', hv, hb', hq⟩
      · exact absurd rfl h
      · simp only [List.map_cons, List.nodup_cons] at hnd
        have hne : ∀ q ∈ rest.map Prod.fst, q ≠ l := fun q hq h => hnd.1 (h ▸ hq)
        have := ih d1 hc.1 hnd.2 (fun p hp => by rw [hc.2.1]; exact hlink p (by simp [hp])) (by
          intro p hp
          obtain ⟨g, r2, hg, hb2⟩ := hfit p (by simp [hp])
          have hne' : l ≠ p.1 := (hne p.1 (List.mem_map_of_mem hp)).symm
          have hv2 : d1.view p.1 = d.view p.1 := by have := hq p.1; simpa [hne'] using this
          have : d1.view p.1 = some (g.dim, g.rows) := by rw [hv2]; simp [DS.view, hg]
          obtain ⟨f', hf', h1, _⟩ := (view_some_iff d1 p.1 _).1 this
          exact ⟨f', r2, hf', by rw [h1]; exact hb2⟩)
        refine ⟨this.1, ?_, ?_⟩
        · intro q hq'
          simp only [List.map_cons, List.mem_cons, not_or] at hq'
          rw [this.2.1 q hq'.2, hq q]; simp [Ne.symm hq'.1]
        · intro p hp
          rcases List.mem_cons.1 hp with rfl | hp
          · refine ⟨dim, rows, r', hv, hb', ?_⟩
            rw [this.2.1 l hnd.1, hq l]; simp
          · obtain ⟨dm, rw', r2, h1, h2, h3⟩ := this.2.2 p hp
            have hne' : l ≠ p.1 := (hne p.1 (List.mem_map_of_mem hp)).symm
            refine ⟨dm, rw', r2, ?_, h2, h3⟩
            have := hq p.1; simp [hne'] at this; rw [← this]; exact h1

/-- The row can be stored in field `l` (right width, or a single number that numpy broadcasts). -/
def DS.fits (d : DS K) (l : String) (row : List K) : Bool :=
  match d.view l with
  | none => false
  | some (dim, _) => (broadcast dim row).isSome

/-- A call that respects the linking: it does not replace a linked field behind the dataset's back,
links distinct names, and appends linked rows that fit their fields. -/
def Respects (d : DS K) : Op K → Bool
  | .addField l _ => l ∉ d.link
  | .setField l _ _ => l ∉ d.link
  | .convertField l => l ∉ d.link
  | .linkFields ls => ls.Nodup
  | .appendLinked args => (d.link.zip args).all (fun p => d.fits p.1 p.2)
  | _ => true

/-- Every call of the history respects the linking in the state in which it is made. -/
def RespectsAll [Zero K] (d : DS K) : List (Op K) → Bool
  | [] => true
  | op :: ops => Respects d op && RespectsAll (step d op).1 ops

theorem fits_spec (d : DS K) (l : String) (row : List K) (h : d.fits l row = true) :
    ∃ dim rows, d.view l = some (dim, rows) ∧ broadcast dim row ≠ none := by
  unfold DS.fits at h
  cases hv : d.view l with
  | none => rw [hv] at h; simp at h
  | some p => obtain ⟨a, b⟩ := p; rw [hv] at h; refine ⟨a, b, rfl, ?_⟩; intro h2; simp [h2] at h

theorem lockstep_of_view {d e : DS K} (hl : d.link.Sublist e.link) (hv : ∀ l ∈ d.link, d.view l = e.view l)
    (he : e.Lockstep) : d.Lockstep := by
  obtain ⟨n, hn⟩ := he
  refine ⟨n, fun l h => ?_⟩
  rw [DS.getField_eq_view, hv l h, ← DS.getField_eq_view]
  exact hn l (hl.subset h)

theorem step_lockstep [Zero K] (d : DS K) (hd : d.WF) (hnd : d.link.Nodup) (hlk : d.Lockstep) (op : Op K)
    (hr : Respects d op) : (step d op).1.Lockstep ∧ (step d op).1.link.Nodup := by
  cases op with
  | addField l n =>
    simp only [Respects, decide_eq_true_eq] at hr
    refine ⟨lockstep_of_view (e := d) (List.Sublist.refl _) (fun q hq => ?_) hlk, hnd⟩
    simp only [step, DS.addField, DS.view_put]
    have : l ≠ q := fun h => hr (h ▸ hq)
    simp [this]
  | setField l n rows =>
    simp only [Respects, decide_eq_true_eq] at hr
    simp only [step, DS.setField]
    split
    · refine ⟨lockstep_of_view (e := d) (List.Sublist.refl _) (fun q hq => ?_) hlk, hnd⟩
      simp only [DS.view_put]
      have : l ≠ q := fun h => hr (h ▸ hq)
      simp [this]
    · exact ⟨hlk, hnd⟩
  | convertField l =>
    simp only [Respects, decide_eq_true_eq] at hr
    simp only [step, DS.convertField]
    cases d.get l with
    | none => exact ⟨hlk, hnd⟩
    | some f =>
      refine ⟨lockstep_of_view (e := d) (List.Sublist.refl _) (fun q hq => ?_) hlk, hnd⟩
      simp only [DS.view_put]
      have : l ≠ q := fun h => hr (h ▸ hq)
      simp [this]
  | linkFields ls =>
    simp only [Respects, decide_eq_true_eq] at hr
    simp only [step]
    have h := DS.linkFields_spec d ls
    by_cases he : (d.linkFields ls).2 = none
    · obtain ⟨h1, n, h2⟩ := h.1 he
      rw [h1]
      refine ⟨⟨n, fun l hl => ?_⟩, hr⟩
      have := h2 l hl
      rw [fieldLen_eq] at this
      exact this
    · rw [h.2 he]; exact ⟨hlk, hnd⟩
  | unlinkFields ls =>
    exact ⟨lockstep_of_view (d.unlinkFields_link ls)
      (fun q _ => DS.view_of_fields_eq (d.unlinkFields_fields ls) q) hlk, hnd.sublist (d.unlinkFields_link ls)⟩
  | append l row =>
    simp only [step, DS.append]
    split
    · exact ⟨hlk, hnd⟩
    · rename_i hl
      have hc := DS.appendUnlinked_cases d hd l row
      refine ⟨lockstep_of_view (e := d) (hc.2.1 ▸ List.Sublist.refl _) (fun q hq => ?_) hlk, hc.2.1 ▸ hnd⟩
      rcases hc.2.2.2 with ⟨_, hv⟩ | ⟨_, dim, rows, r', hv, hb', hv2⟩
      · exact hv q
      · rw [hv2 q]
        rw [hc.2.1] at hq
        have : l ≠ q := fun h => hl (h ▸ hq)
        simp [this]
  | appendLinked args =>
    simp only [Respects, decide_eq_true_eq] at hr
    simp only [step, DS.appendLinked]
    split
    · rename_i hlen
      have hfst : (d.link.zip args).map Prod.fst = d.link := List.map_fst_zip (by omega)
      have h := appendAll_ok (d.link.zip args) d hd (by rw [hfst]; exact hnd)
        (fun p hp => (List.of_mem_zip hp).1) (by
          intro p hp
          obtain ⟨dim, rows, hv, hb⟩ := fits_spec d p.1 p.2 (List.all_eq_true.1 hr p hp)
          obtain ⟨f, hf, h1, _⟩ := (view_some_iff d p.1 _).1 hv
          cases hbb : broadcast dim p.2 with
          | none => exact absurd hbb hb
          | some r => exact ⟨f, r, hf, by rw [h1]; exact hbb⟩)
      have hlink := (DS.appendAll_wf d hd (d.link.zip args)).2.1
      obtain ⟨n, hn⟩ := hlk
      refine ⟨⟨n + 1, fun l hl => ?_⟩, by rw [hlink]; exact hnd⟩
      rw [hlink, ← hfst] at hl
      obtain ⟨p, hp, rfl⟩ := List.mem_map.1 hl
      obtain ⟨dim, rows, r, h1, h2, h3⟩ := h.2.2 p hp
      have hn' := hn p.1 (List.of_mem_zip hp).1
      rw [DS.getField_eq_view, h1] at hn'
      rw [DS.getField_eq_view, h3]
      simpa using hn'
    · exact ⟨hlk, hnd⟩
  | getLinked i =>
    have h := d.getLinked_fst_fields i
    have : (step d (.getLinked i)).1 = (d.getLinked i).1 := by
      simp only [step]; cases hg : d.getLinked i with
      | mk a b => cases b <;> rfl
    rw [this]
    exact ⟨lockstep_of_view (e := d) (by rw [h.2]; exact List.Sublist.refl _)
      (fun q _ => DS.view_of_fields_eq h.1 q) hlk, h.2.symm ▸ hnd⟩
  | reset => exact ⟨lockstep_of_view (e := d) (List.Sublist.refl _) (fun _ _ => rfl) hlk, hnd⟩
  | clear u =>
    refine ⟨⟨0, fun l hl => ?_⟩, hnd⟩
    simp only [step] at hl ⊢
    have hl' : l ∈ d.link := hl
    obtain ⟨f, hf⟩ := hd.2 l hl'
    simp [DS.getField, DS.get_clear, hf, hl', Field.rows]
  | compact =>
    exact ⟨lockstep_of_view (e := d) (List.Sublist.refl _) (fun q _ => DS.view_compact d q) hlk, hnd⟩

theorem run_lockstep [Zero K] (ops : List (Op K)) (d : DS K) (hd : d.WF) (hnd : d.link.Nodup)
    (hlk : d.Lockstep) (hr : RespectsAll d ops) : (run d ops).Lockstep := by
  induction ops generalizing d with
  | nil => exact hlk
  | cons op ops ih =>
    have h := step_lockstep d hd hnd hlk op (Bool.and_eq_true_iff.1 hr).1
    exact ih _ (step_link_sub d op hd) h.2 h.1 (Bool.and_eq_true_iff.1 hr).2

theorem appendUnlinked_err [Zero K] (d : DS K) (l : String) (row : List K) :
    (d.appendUnlinked l row).2 ≠ some Err.assertion := by
  unfold DS.appendUnlinked
  split
  · simp
  · dsimp only
    split
    · simp
    · split
      · split <;> simp
      · simp

/-- A failing call other than `appendLinked` changes no field content and no link. -/
theorem step_err_view [Zero K] (d : DS K) (hd : d.WF) (op : Op K) (e : Err) (he : (step d op).2 = some e)
    (hop : (∀ args, op ≠ .appendLinked args) ∨ e = .assertion) :
    (∀ q, (step d op).1.view q = d.view q) ∧ (step d op).1.link = d.link := by
  cases op with
  | addField l n => simp [step] at he
  | setField l n rows =>
    simp only [step, DS.setField] at *
    split at he
    · simp at he
    · rename_i h; simp only [h]; exact ⟨fun _ => rfl, rfl⟩
  | linkFields ls =>
    simp only [step] at *
    have h := (DS.linkFields_spec d ls).2 (by rw [he]; simp)
    rw [h]; exact ⟨fun _ => rfl, rfl⟩
  | unlinkFields ls => simp [step] at he
  | append l row =>
    simp only [step, DS.append] at *
    split at he
    · rename_i h; simp [h]
    · rename_i h; simp only [h, if_false]
      have hc := DS.appendUnlinked_cases d hd l row
      rcases hc.2.2.2 with ⟨_, hv⟩ | ⟨h, _⟩
      · exact ⟨hv, hc.2.1⟩
      · rw [h] at he; simp at he
  | appendLinked args =>
    rcases hop with hop | hop
    · exact absurd rfl (hop args)
    · subst hop
      simp only [step, DS.appendLinked] at *
      split at he
      · exfalso
        have : ∀ (xs : List (String × List K)) (d : DS K), (d.appendAll xs).2 ≠ some Err.assertion := by
          intro xs
          induction xs with
          | nil => intro d; simp [DS.appendAll]
          | cons p rest ih =>
            intro d
            obtain ⟨l, row⟩ := p
            unfold DS.appendAll
            cases ha : d.appendUnlinked l row with
            | mk d1 e =>
              cases e with
              | none => exact ih d1
              | some e =>
                simp only [ne_eq, Option.some.injEq]
                rintro rfl
                exact appendUnlinked_err d l row (by rw [ha])
        exact this _ _ he
      · rename_i h; simp [h]
  | getLinked i =>
    have h := d.getLinked_fst_fields i
    have : (step d (.getLinked i)).1 = (d.getLinked i).1 := by
      simp only [step]; cases hg : d.getLinked i with
      | mk a b => cases b <;> rfl
    rw [this]; exact ⟨fun q => DS.view_of_fields_eq h.1 q, h.2⟩
  | convertField l =>
    simp only [step, DS.convertField] at *
    cases h : d.get l with
    | none => simp
    | some f => rw [h] at he; simp at he
  | reset => simp [step] at he
  | clear u => simp [step] at he
  | compact => simp [step] at he

end Verif.DataSet
