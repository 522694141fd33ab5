import Verif.Model.CopySet
import Mathlib.Data.List.GetD
import Mathlib.Tactic.Common
import Mathlib.Algebra.Order.Ring.Int
/-
C189 Copying and saving data sets.
-/
namespace Verif.CopySet
open Verif.Py
open Verif.DataSet (Err broadcast)
variable {K : Type}

/-! ### Specification -/

/-- arrays are what they can be in a run of Python: they show rows of existing buffers, the end marker is not behind their end, and the same object has
the same attributes wherever it is used -/
structure Valid (m : Mem K) (d : DSet) : Prop where
  buf : ∀ l f, d.get l = some f → f.buf < m.bufs.length
  len : ∀ l f, d.get l = some f → f.len ≤ (m.bufs.getD f.buf []).length
  fin : ∀ l f, d.get l = some f → f.fin ≤ f.len
  made : ∀ l f, d.get l = some f → f.obj < m.objs
  nodup : (d.fields.map Prod.fst).Nodup
  obj : ∀ l l' f f', d.get l = some f → d.get l' = some f' → f.obj = f'.obj → f.buf = f'.buf ∧ f.dim = f'.dim ∧ f.len = f'.len

/-- what a program sees in a data set: the kind, names, columns and rows of the fields, links, dimensions, classes -/
structure Same (m : Mem K) (d : DSet) (m' : Mem K) (d' : DSet) : Prop where
  names : d'.fields.map Prod.fst = d.fields.map Prod.fst
  link : d'.link = d.link
  dims : ∀ l f, d.get l = some f → ∃ g, d'.get l = some g ∧ g.dim = f.dim ∧ g.fin = f.fin ∧ rows m' g = rows m f

/-- no two fields show the same memory -/
def Unshared (d : DSet) : Prop := ∀ l l' f f', d.get l = some f → d.get l' = some f' → f.buf = f'.buf → l = l'

/-- the data sets have no memory in common -/
def Apart (d e : DSet) : Prop := ∀ l l' f g, d.get l = some f → e.get l' = some g → f.buf ≠ g.buf

/-- the classes of pybrain whose constructor takes the arguments of `__reduce__` -/
def Copyable (c : Cls) : Prop := c ≠ .loglh ∧ c ≠ .svmData ∧ c ≠ .xor ∧ c ≠ .parity

/-! ### Lemmas -/

theorem get_put (d : DSet) (l q : String) (f : Fld) : (d.put l f).get q = if l = q then some f else d.get q := dget_dset _ _ _ _

theorem keys_dset {α β : Type} (d : List (String × α)) (d' : List (String × β)) (h : d.map Prod.fst = d'.map Prod.fst) (k : String) (v : α) (w : β) :
    (dset d k v).map Prod.fst = (dset d' k w).map Prod.fst := by
  induction d generalizing d' with
  | nil => cases d' with
    | nil => rfl
    | cons p d' => simp at h
  | cons p d ih => cases d' with
    | nil => simp at h
    | cons p' d' =>
      simp only [List.map_cons, List.cons.injEq] at h
      simp only [dset, h.1]
      split
      · simp [h.2]
      · simp [ih d' h.2, h.1]

theorem keys_dset_nodup {α : Type} (d : List (String × α)) (h : (d.map Prod.fst).Nodup) (k : String) (v : α) : ((dset d k v).map Prod.fst).Nodup := by
  have key : ∀ (d : List (String × α)) (x : String), x ∈ (dset d k v).map Prod.fst → x = k ∨ x ∈ d.map Prod.fst := by
    intro d
    induction d with
    | nil => intro x hx; simpa [dset] using hx
    | cons p d ih =>
      intro x hx
      simp only [dset] at hx
      split at hx
      · rename_i e; simp only [List.map_cons, List.mem_cons] at hx ⊢; rcases hx with h | h <;> simp [h]
      · simp only [List.map_cons, List.mem_cons] at hx ⊢
        rcases hx with h | h
        · simp [h]
        · rcases ih x h with h | h <;> simp [h]
  induction d with
  | nil => simp [dset]
  | cons p d ih =>
    simp only [List.map_cons, List.nodup_cons] at h
    simp only [dset]
    split
    · rename_i e; subst e; simpa using h
    · rename_i e
      simp only [List.map_cons, List.nodup_cons]
      refine ⟨fun hm => ?_, ih h.2⟩
      rcases key d _ hm with h' | h'
      · exact e h'
      · exact h.1 h'

theorem keys_get {α β : Type} (d : List (String × α)) (d' : List (String × β)) (h : d.map Prod.fst = d'.map Prod.fst) (l : String) (hn : dget d l = none) : dget d' l = none := by
  induction d generalizing d' with
  | nil => cases d' with
    | nil => rfl
    | cons p d' => simp at h
  | cons p d ih => cases d' with
    | nil => simp at h
    | cons p' d' =>
      simp only [List.map_cons, List.cons.injEq] at h
      simp only [dget] at hn ⊢
      split at hn
      · simp at hn
      · rename_i e; rw [if_neg (h.1 ▸ e)]; exact ih d' h.2 hn

theorem content_append (m : Mem K) (f : Fld) (h : f.buf < m.bufs.length) (bs : List (List (List K))) (o : Nat) :
    content { bufs := m.bufs ++ bs, objs := o } f = content m f := by
  simp only [content]
  rw [List.getD_eq_getElem?_getD, List.getElem?_append_left h, ← List.getD_eq_getElem?_getD]

theorem content_new (m : Mem K) (f : Fld) (h : f.buf = m.bufs.length) (c : List (List K)) (o : Nat) :
    content { bufs := m.bufs ++ [c], objs := o } f = c.take f.len := by
  simp only [content]
  rw [List.getD_eq_getElem?_getD, List.getElem?_append_right (by omega)]
  simp [h]

theorem content_poke (m : Mem K) (f : Fld) (h : f.buf < m.bufs.length) (b k : Nat) (r : List K) :
    content (poke m b k r) f = if f.buf = b then (content m f).set k r else content m f := by
  simp only [content, poke]
  by_cases e : f.buf = b
  · subst e
    simp only [List.getD_eq_getElem?_getD, List.getElem?_set, h, if_true, Option.getD_some]
    rw [List.take_set]
  · simp only [List.getD_eq_getElem?_getD, List.getElem?_set, if_neg (Ne.symm e), if_neg e]

theorem poke_length (m : Mem K) (b k : Nat) (r : List K) (c : Nat) : ((poke m b k r).bufs.getD c []).length = (m.bufs.getD c []).length := by
  simp only [poke, List.getD_eq_getElem?_getD, List.getElem?_set]
  split
  · rename_i e; subst e
    split
    · simp
    · rename_i h; rw [List.getElem?_eq_none (by omega)]
  · rfl

/-! ### One data set changes, another does not -/

/-- `s.2` was changed by a program, `e` is another data set, whose rows are as they were in `m0` -/
structure Frame (m0 : Mem K) (e : DSet) (s : Mem K × DSet) : Prop where
  valid : Valid s.1 s.2
  other : Valid s.1 e
  apart : Apart s.2 e
  same : ∀ l g, e.get l = some g → content s.1 g = content m0 g

theorem bufs_new_len (m : Mem K) (c : List (List K)) (b : Nat) (h : b < m.bufs.length) : (m.bufs ++ [c]).getD b [] = m.bufs.getD b [] := by
  rw [List.getD_eq_getElem?_getD, List.getElem?_append_left h, ← List.getD_eq_getElem?_getD]

theorem valid_alloc {m : Mem K} {d : DSet} (h : Valid m d) (l : String) (dim : Nat) (c : List (List K)) (fin : Nat) (hf : fin ≤ c.length) :
    Valid (alloc m d l dim c fin).1 (alloc m d l dim c fin).2 := by
  have hb : ∀ q f, (alloc m d l dim c fin).2.get q = some f → (f.buf = m.bufs.length ∧ f.len = c.length ∧ f.fin = fin ∧ f.obj = m.objs ∧ f.dim = dim) ∨ d.get q = some f := by
    intro q f hq
    simp only [alloc, get_put] at hq
    split at hq
    · simp only [Option.some.injEq] at hq; subst hq; exact .inl ⟨rfl, rfl, rfl, rfl, rfl⟩
    · exact .inr hq
  refine ⟨fun q f hq => ?_, fun q f hq => ?_, fun q f hq => ?_, fun q f hq => ?_, keys_dset_nodup _ h.nodup _ _, fun q q' f f' hq hq' e => ?_⟩
  · rcases hb q f hq with h1 | h1
    · simp [alloc, h1.1]
    · have := h.buf q f h1; simp [alloc]; omega
  · rcases hb q f hq with h1 | h1
    · simp [alloc, h1.1, h1.2.1]
    · simp only [alloc]; rw [bufs_new_len m c _ (h.buf q f h1)]; exact h.len q f h1
  · rcases hb q f hq with h1 | h1
    · omega
    · exact h.fin q f h1
  · rcases hb q f hq with h1 | h1
    · simp [alloc, h1.2.2.2.1]
    · have := h.made q f h1; simp [alloc]; omega
  · rcases hb q f hq with h1 | h1 <;> rcases hb q' f' hq' with h2 | h2
    · exact ⟨by omega, by omega, by omega⟩
    · have := h.made q' f' h2; omega
    · have := h.made q f h1; omega
    · exact h.obj q q' f f' h1 h2 e

theorem valid_append {m : Mem K} {e : DSet} (h : Valid m e) (c : List (List K)) (o : Nat) (ho : m.objs ≤ o) : Valid { bufs := m.bufs ++ [c], objs := o } e :=
  ⟨fun l f hf => by have := h.buf l f hf; simp; omega, fun l f hf => by simp only; rw [bufs_new_len m c _ (h.buf l f hf)]; exact h.len l f hf, h.fin,
   fun l f hf => lt_of_lt_of_le (h.made l f hf) ho, h.nodup, h.obj⟩

theorem valid_poke {m : Mem K} {e : DSet} (h : Valid m e) (b k : Nat) (r : List K) : Valid (poke m b k r) e :=
  ⟨fun l f hf => by have := h.buf l f hf; simpa [poke] using this, fun l f hf => by rw [poke_length]; exact h.len l f hf, h.fin, h.made, h.nodup, h.obj⟩

theorem valid_objs {m : Mem K} {e : DSet} (h : Valid m e) : Valid { m with objs := m.objs + 1 } e :=
  ⟨h.buf, h.len, h.fin, fun l f hf => Nat.lt_succ_of_lt (h.made l f hf), h.nodup, h.obj⟩

theorem valid_put {m : Mem K} {d : DSet} (h : Valid m d) {l : String} {f : Fld} (hl : d.get l = some f) (n : Nat) (hn : n ≤ f.len) :
    Valid m (d.put l { f with fin := n }) := by
  have hb : ∀ q g, (d.put l { f with fin := n }).get q = some g → ∃ g0, d.get q = some g0 ∧ g.buf = g0.buf ∧ g.len = g0.len ∧ g.dim = g0.dim ∧ g.obj = g0.obj ∧ g.fin ≤ g.len := by
    intro q g hq
    simp only [get_put] at hq
    split at hq
    · rename_i e; subst e; simp only [Option.some.injEq] at hq; subst hq; exact ⟨f, hl, rfl, rfl, rfl, rfl, hn⟩
    · exact ⟨g, hq, rfl, rfl, rfl, rfl, h.fin q g hq⟩
  refine ⟨fun q g hq => ?_, fun q g hq => ?_, fun q g hq => ?_, fun q g hq => ?_, keys_dset_nodup _ h.nodup _ _, fun q q' g g' hq hq' e => ?_⟩
  · obtain ⟨g0, h0, h1, -⟩ := hb q g hq; rw [h1]; exact h.buf q g0 h0
  · obtain ⟨g0, h0, h1, h2, -⟩ := hb q g hq; rw [h1, h2]; exact h.len q g0 h0
  · obtain ⟨g0, h0, h1, h2, h3, h4, h5⟩ := hb q g hq; exact h5
  · obtain ⟨g0, h0, h1, h2, h3, h4, h5⟩ := hb q g hq; rw [h4]; exact h.made q g0 h0
  · obtain ⟨g0, h0, h1, h2, h3, h4, h5⟩ := hb q g hq
    obtain ⟨g0', h0', h1', h2', h3', h4', h5'⟩ := hb q' g' hq'
    have := h.obj q q' g0 g0' h0 h0' (by omega)
    exact ⟨by omega, by omega, by omega⟩

theorem valid_view {m : Mem K} {d : DSet} (h : Valid m d) {l l' : String} {f : Fld} (hl : d.get l' = some f) :
    Valid { m with objs := m.objs + 1 } (d.put l { obj := m.objs, buf := f.buf, dim := f.dim, len := f.fin, fin := f.fin }) := by
  have hb : ∀ q g, (d.put l { obj := m.objs, buf := f.buf, dim := f.dim, len := f.fin, fin := f.fin }).get q = some g →
      (g.buf = f.buf ∧ g.len = f.fin ∧ g.fin = f.fin ∧ g.obj = m.objs ∧ g.dim = f.dim) ∨ d.get q = some g := by
    intro q g hq
    simp only [get_put] at hq
    split at hq
    · simp only [Option.some.injEq] at hq; subst hq; exact .inl ⟨rfl, rfl, rfl, rfl, rfl⟩
    · exact .inr hq
  refine ⟨fun q g hq => ?_, fun q g hq => ?_, fun q g hq => ?_, fun q g hq => ?_, keys_dset_nodup _ h.nodup _ _, fun q q' g g' hq hq' e => ?_⟩
  · rcases hb q g hq with h1 | h1
    · rw [h1.1]; exact h.buf l' f hl
    · exact h.buf q g h1
  · rcases hb q g hq with h1 | h1
    · rw [h1.1, h1.2.1]; exact le_trans (h.fin l' f hl) (h.len l' f hl)
    · exact h.len q g h1
  · rcases hb q g hq with h1 | h1
    · omega
    · exact h.fin q g h1
  · rcases hb q g hq with h1 | h1
    · simp [h1.2.2.2.1]
    · exact Nat.lt_succ_of_lt (h.made q g h1)
  · rcases hb q g hq with h1 | h1 <;> rcases hb q' g' hq' with h2 | h2
    · exact ⟨by omega, by omega, by omega⟩
    · have := h.made q' g' h2; omega
    · have := h.made q g h1; omega
    · exact h.obj q q' g g' h1 h2 e

theorem frame_alloc {m0 : Mem K} {e : DSet} {s : Mem K × DSet} (h : Frame m0 e s) (l : String) (dim : Nat) (c : List (List K)) (fin : Nat) (hf : fin ≤ c.length) :
    Frame m0 e (alloc s.1 s.2 l dim c fin) := by
  refine ⟨valid_alloc h.valid l dim c fin hf, valid_append h.other c _ (Nat.le_succ _), fun q q' f g hq hg => ?_, fun q g hg => ?_⟩
  · simp only [alloc, get_put] at hq
    split at hq
    · simp only [Option.some.injEq] at hq; subst hq
      have := h.other.buf q' g hg; simp only; omega
    · exact h.apart q q' f g hq hg
  · exact (content_append s.1 g (h.other.buf q g hg) [c] _).trans (h.same q g hg)

theorem frame_poke {m0 : Mem K} {e : DSet} {s : Mem K × DSet} (h : Frame m0 e s) {l : String} {f : Fld} (hl : s.2.get l = some f) (k : Nat) (r : List K) :
    Frame m0 e (poke s.1 f.buf k r, s.2) := by
  refine ⟨valid_poke h.valid _ _ _, valid_poke h.other _ _ _, h.apart, fun q g hg => ?_⟩
  simp only
  rw [content_poke _ _ (h.other.buf q g hg), if_neg (Ne.symm (h.apart l q f g hl hg))]
  exact h.same q g hg

theorem frame_put {m0 : Mem K} {e : DSet} {s : Mem K × DSet} (h : Frame m0 e s) {l : String} {f : Fld} (hl : s.2.get l = some f) (n : Nat) (hn : n ≤ f.len) :
    Frame m0 e (s.1, s.2.put l { f with fin := n }) := by
  refine ⟨valid_put h.valid hl n hn, h.other, fun q q' f' g hq hg => ?_, h.same⟩
  simp only [get_put] at hq
  split at hq
  · simp only [Option.some.injEq] at hq; subst hq; exact h.apart l q' f g hl hg
  · exact h.apart q q' f' g hq hg

theorem frame_view {m0 : Mem K} {e : DSet} {s : Mem K × DSet} (h : Frame m0 e s) (l l' : String) {f : Fld} (hl : s.2.get l' = some f) :
    Frame m0 e ({ s.1 with objs := s.1.objs + 1 }, s.2.put l { obj := s.1.objs, buf := f.buf, dim := f.dim, len := f.fin, fin := f.fin }) := by
  refine ⟨valid_view h.valid hl, valid_objs h.other, fun q q' f' g hq hg => ?_, h.same⟩
  simp only [get_put] at hq
  split at hq
  · simp only [Option.some.injEq] at hq; subst hq; exact h.apart l' q' f g hl hg
  · exact h.apart q q' f' g hq hg

theorem grown_length [Zero K] (dim : Nat) (c : List (List K)) : (grown dim c).length = (c.length + 1) * 2 := by simp [grown]

theorem content_length {m : Mem K} {d : DSet} (h : Valid m d) {l : String} {f : Fld} (hl : d.get l = some f) : (content m f).length = f.len := by
  simp only [content, List.length_take]; exact min_eq_left (h.len l f hl)

theorem frame_appendUnlinked [Zero K] {m0 : Mem K} {e : DSet} {s : Mem K × DSet} (h : Frame m0 e s) (l : String) (row : List K) :
    Frame m0 e (appendUnlinked s.1 s.2 l row).1 := by
  unfold appendUnlinked
  cases hl : s.2.get l with
  | none => exact h
  | some f0 =>
    simp only
    have hlen := content_length h.valid hl
    have h1 : Frame m0 e (if f0.len ≤ f0.fin then alloc s.1 s.2 l f0.dim (grown f0.dim (content s.1 f0)) f0.fin else (s.1, s.2)) ∧
        ∃ f, (if f0.len ≤ f0.fin then alloc s.1 s.2 l f0.dim (grown f0.dim (content s.1 f0)) f0.fin else (s.1, s.2)).2.get l = some f ∧ f.fin < f.len := by
      split
      · have hfin := h.valid.fin l f0 hl
        refine ⟨frame_alloc h l _ _ _ (by rw [grown_length, hlen]; omega), ⟨_, by simp only [alloc, get_put]; simp; rfl, ?_⟩⟩
        simp only [grown_length, hlen]; omega
      · exact ⟨h, f0, hl, by omega⟩
    generalize (if f0.len ≤ f0.fin then alloc s.1 s.2 l f0.dim (grown f0.dim (content s.1 f0)) f0.fin else (s.1, s.2)) = s1 at h1
    obtain ⟨h1, f, hf, hlt⟩ := h1
    rw [hf]
    simp only
    cases broadcast f.dim row with
    | none => exact h1
    | some r => exact frame_put (frame_poke h1 hf f.fin r) hf (f.fin + 1) hlt

theorem frame_appendAll [Zero K] {m0 : Mem K} {e : DSet} (xs : List (String × List K)) : ∀ {s : Mem K × DSet}, Frame m0 e s → Frame m0 e (appendAll s xs).1 := by
  induction xs with
  | nil => intro s h; exact h
  | cons x xs ih =>
    intro s h
    have h1 := frame_appendUnlinked h x.1 x.2
    simp only [appendAll]
    rcases hr : appendUnlinked s.1 s.2 x.1 x.2 with ⟨s', _ | er⟩
    · rw [hr] at h1; exact ih h1
    · rw [hr] at h1; exact h1

theorem frame_clearAll {m0 : Mem K} {e : DSet} (ls : List String) : ∀ {s : Mem K × DSet}, Frame m0 e s → Frame m0 e (clearAll s ls) := by
  induction ls with
  | nil => intro s h; exact h
  | cons l ls ih =>
    intro s h
    simp only [clearAll]
    cases s.2.get l with
    | none => exact ih h
    | some f => exact ih (frame_alloc h l _ _ _ (by simp))

theorem frame_step [Zero K] {m0 : Mem K} {e : DSet} {s : Mem K × DSet} (h : Frame m0 e s) (o : Op K) : Frame m0 e (step s.1 s.2 o).1 := by
  cases o with
  | append l row => simp only [step]; split; exacts [h, frame_appendUnlinked h l row]
  | appendLinked rs => simp only [step]; split; exacts [frame_appendAll _ h, h]
  | setNew l dim rs => simp only [step]; split; exacts [frame_alloc h _ _ _ _ le_rfl, h]
  | setView l l' =>
    simp only [step]
    cases hl : s.2.get l' with
    | none => exact h
    | some f =>
      simp only
      split
      · exact frame_alloc h _ _ _ _ le_rfl
      · exact frame_view h l l' hl
  | write l i row =>
    simp only [step]
    cases hl : s.2.get l with
    | none => exact h
    | some f =>
      simp only
      split
      · split
        · exact h
        · cases broadcast f.dim row with
          | none => exact h
          | some r => exact frame_poke h hl i r
      · exact h
  | unlink => exact ⟨⟨h.valid.1, h.valid.2, h.valid.3, h.valid.4, h.valid.5, h.valid.6⟩, h.other, h.apart, h.same⟩
  | clear => exact frame_clearAll _ (s := (s.1, { s.2 with index := 0 })) ⟨⟨h.valid.1, h.valid.2, h.valid.3, h.valid.4, h.valid.5, h.valid.6⟩, h.other, h.apart, h.same⟩

theorem frame_run [Zero K] {m0 : Mem K} {e : DSet} (os : List (Op K)) : ∀ {s : Mem K × DSet}, Frame m0 e s → Frame m0 e (run s os).1 := by
  induction os with
  | nil => intro s h; exact h
  | cons o os ih => intro s h; exact ih (frame_step h o)

/-! ### The copy -/

structure MemoInv (m0 : Mem K) (d : DSet) (m : Mem K) (memo : List (Nat × Fld)) : Prop where
  ext : ∃ bs, m.bufs = m0.bufs ++ bs
  objs : m0.objs ≤ m.objs
  ok : ∀ o g, dget memo o = some g → m0.bufs.length ≤ g.buf ∧ g.buf < m.bufs.length ∧ m0.objs ≤ g.obj ∧ g.obj < m.objs ∧
    ∃ l f, d.get l = some f ∧ f.obj = o ∧ g.dim = f.dim ∧ g.len = f.len ∧ m.bufs.getD g.buf [] = content m0 f
  inj : ∀ o o' g g', dget memo o = some g → dget memo o' = some g' → g.buf = g'.buf ∨ g.obj = g'.obj → o = o'

theorem memo_copyArr {m0 : Mem K} {d : DSet} (hv : Valid m0 d) {m : Mem K} {memo : List (Nat × Fld)} (h : MemoInv m0 d m memo) {l : String} {f : Fld} (hl : d.get l = some f) :
    MemoInv m0 d (copyArr m memo f).1 (copyArr m memo f).2.1 ∧
    (∃ g, dget (copyArr m memo f).2.1 f.obj = some g ∧ (copyArr m memo f).2.2 = { g with fin := f.fin }) ∧
    ∀ o g, dget memo o = some g → dget (copyArr m memo f).2.1 o = some g := by
  unfold copyArr
  cases hm : dget memo f.obj with
  | some g => exact ⟨h, ⟨g, hm, rfl⟩, fun o g h => h⟩
  | none =>
    simp only
    obtain ⟨bs, hbs⟩ := h.ext
    have hc : content m f = content m0 f := by
      have := content_append m0 f (hv.buf l f hl) bs m.objs
      rw [← hbs] at this; exact this
    refine ⟨⟨⟨bs ++ [content m f], by simp [hbs]⟩, by have := h.objs; simp only; omega, fun o g hg => ?_, fun o o' g g' hg hg' e => ?_⟩, ⟨{ obj := m.objs, buf := m.bufs.length, dim := f.dim, len := f.len, fin := f.fin }, by simp [dget], rfl⟩, fun o g hg => ?_⟩
    · simp only [dget] at hg
      split at hg
      · rename_i e; subst e
        simp only [Option.some.injEq] at hg; subst hg
        refine ⟨by simp [hbs], by simp, h.objs, by simp, l, f, hl, rfl, rfl, rfl, ?_⟩
        simp [List.getD_eq_getElem?_getD, hc]
      · obtain ⟨h1, h2, h3, h4, l', f', h5, h6, h7, h8, h9⟩ := h.ok o g hg
        refine ⟨h1, by simp; omega, h3, by simp only; omega, l', f', h5, h6, h7, h8, ?_⟩
        simp only; rw [bufs_new_len m _ _ h2]; exact h9
    · simp only [dget] at hg hg'
      split at hg <;> split at hg'
      · rename_i e1 e2; exact e1.symm.trans e2
      · simp only [Option.some.injEq] at hg; subst hg
        have := h.ok o' g' hg'; simp only at e; omega
      · simp only [Option.some.injEq] at hg'; subst hg'
        have := h.ok o g hg; simp only at e; omega
      · exact h.inj o o' g g' hg hg' e
    · simp only [dget]
      split
      · rename_i e; rw [e, hg] at hm; simp at hm
      · exact hg

theorem memo_copyFields {m0 : Mem K} {d : DSet} (hv : Valid m0 d) (fs : List (String × Fld)) : ∀ {m : Mem K} {memo : List (Nat × Fld)}, MemoInv m0 d m memo →
    (∀ p ∈ fs, d.get p.1 = some p.2) →
    ∃ memo', MemoInv m0 d (copyFields m memo fs).1 memo' ∧ (∀ o g, dget memo o = some g → dget memo' o = some g) ∧
      (copyFields m memo fs).2.map Prod.fst = fs.map Prod.fst ∧
      ∀ l f, dget fs l = some f → ∃ g, dget memo' f.obj = some g ∧ dget (copyFields m memo fs).2 l = some { g with fin := f.fin } := by
  induction fs with
  | nil => intro m memo h _; exact ⟨memo, h, fun _ _ h => h, rfl, fun l f h => by simp [dget] at h⟩
  | cons p fs ih =>
    intro m memo h hp
    obtain ⟨l, f⟩ := p
    obtain ⟨h1, ⟨g, hg, he⟩, h2⟩ := memo_copyArr hv h (hp (l, f) List.mem_cons_self)
    obtain ⟨memo', i1, i2, i3, i4⟩ := ih h1 (fun p hq => hp p (List.mem_cons_of_mem _ hq))
    refine ⟨memo', i1, fun o g hog => i2 _ _ (h2 _ _ hog), by simp [copyFields, i3], fun q f' hq => ?_⟩
    simp only [dget] at hq
    simp only [copyFields, dget]
    split at hq
    · rename_i e; simp only [Option.some.injEq] at hq; subst hq
      rw [if_pos e]
      exact ⟨g, i2 _ _ hg, by rw [he]⟩
    · rename_i e; rw [if_neg e]; exact i4 q f' hq

theorem mem_get {d : DSet} (h : (d.fields.map Prod.fst).Nodup) : ∀ p ∈ d.fields, d.get p.1 = some p.2 := by
  have : ∀ fs : List (String × Fld), (fs.map Prod.fst).Nodup → ∀ p ∈ fs, dget fs p.1 = some p.2 := by
    intro fs
    induction fs with
    | nil => intro _ p hp; simp at hp
    | cons q fs ih =>
      intro hn p hp
      simp only [List.map_cons, List.nodup_cons] at hn
      simp only [dget]
      rcases List.mem_cons.1 hp with rfl | hp
      · simp
      · have hm : p.1 ∈ fs.map Prod.fst := List.mem_map_of_mem hp
        rw [if_neg (fun e : q.1 = p.1 => hn.1 (e ▸ hm))]; exact ih hn.2 p hp
  exact this _ h

/-- the copies of the fields: equal, new, and shared only as the objects were -/
theorem copy_spec {m : Mem K} {d : DSet} (hv : Valid m d) {m' : Mem K} {d' : DSet} (hf : d'.fields = (copyFields m [] d.fields).2) (hm : m' = (copyFields m [] d.fields).1) :
    (∃ bs, m'.bufs = m.bufs ++ bs) ∧ m.objs ≤ m'.objs ∧ d'.fields.map Prod.fst = d.fields.map Prod.fst ∧ Valid m' d' ∧
    (∀ l f, d.get l = some f → ∃ g, d'.get l = some g ∧ g.dim = f.dim ∧ g.len = f.len ∧ g.fin = f.fin ∧ content m' g = content m f ∧ m.bufs.length ≤ g.buf) ∧
    (∀ l l' f f' g g', d.get l = some f → d.get l' = some f' → d'.get l = some g → d'.get l' = some g' → (g.buf = g'.buf ↔ f.obj = f'.obj)) := by
  have h0 : MemoInv m d m [] := ⟨⟨[], by simp⟩, le_rfl, fun o g h => by simp [dget] at h, fun o o' g g' h => by simp [dget] at h⟩
  obtain ⟨memo, h1, -, h3, h4⟩ := memo_copyFields hv d.fields h0 (mem_get hv.nodup)
  rw [← hm] at h1
  rw [← hf] at h3 h4
  have key : ∀ l f, d.get l = some f → ∃ g, dget memo f.obj = some g ∧ d'.get l = some { g with fin := f.fin } ∧ g.dim = f.dim ∧ g.len = f.len ∧ m'.bufs.getD g.buf [] = content m f := by
    intro l f hl
    obtain ⟨g, hg, hd⟩ := h4 l f hl
    obtain ⟨-, -, -, -, l2, f2, h5, h6, h7, h8, h9⟩ := h1.ok _ _ hg
    obtain ⟨k1, k2, k3⟩ := hv.obj l2 l f2 f h5 hl h6
    exact ⟨g, hg, hd, h7.trans k2, h8.trans k3, h9.trans (by simp [content, k1, k3])⟩
  have back : ∀ l g, d'.get l = some g → ∃ f, d.get l = some f := by
    intro l g hg
    cases hl : d.get l with
    | none =>
      have := keys_get d.fields d'.fields h3.symm l hl
      rw [DSet.get, this] at hg; simp at hg
    | some f => exact ⟨f, rfl⟩
  have full : ∀ l g, d'.get l = some g → ∃ f g0, d.get l = some f ∧ dget memo f.obj = some g0 ∧ g = { g0 with fin := f.fin } ∧ g0.dim = f.dim ∧ g0.len = f.len ∧ m'.bufs.getD g0.buf [] = content m f := by
    intro l g hg
    obtain ⟨f, hl⟩ := back l g hg
    obtain ⟨g0, k1, k2, k3, k4, k5⟩ := key l f hl
    rw [k2] at hg; simp only [Option.some.injEq] at hg
    exact ⟨f, g0, hl, k1, hg.symm, k3, k4, k5⟩
  refine ⟨h1.ext, h1.objs, h3, ⟨fun l g hg => ?_, fun l g hg => ?_, fun l g hg => ?_, fun l g hg => ?_, h3 ▸ hv.nodup, fun l l' g g' hg hg' e => ?_⟩, fun l f hl => ?_, fun l l' f f' g g' hl hl' hg hg' => ?_⟩
  · obtain ⟨f, g0, -, k1, rfl, -⟩ := full l g hg; exact (h1.ok _ _ k1).2.1
  · obtain ⟨f, g0, k0, k1, rfl, k2, k3, k4⟩ := full l g hg
    simp only; rw [k4, content_length hv k0, k3]
  · obtain ⟨f, g0, k0, k1, rfl, k2, k3, k4⟩ := full l g hg
    simp only; rw [k3]; exact hv.fin l f k0
  · obtain ⟨f, g0, k0, k1, rfl, -⟩ := full l g hg; exact (h1.ok _ _ k1).2.2.2.1
  · obtain ⟨f, g0, k0, k1, rfl, k2, k3, k4⟩ := full l g hg
    obtain ⟨f', g0', k0', k1', rfl, k2', k3', k4'⟩ := full l' g' hg'
    have := h1.inj _ _ _ _ k1 k1' (.inr e)
    rw [this] at k1; rw [k1] at k1'; simp only [Option.some.injEq] at k1'; subst k1'
    exact ⟨rfl, rfl, rfl⟩
  · obtain ⟨g0, k1, k2, k3, k4, k5⟩ := key l f hl
    refine ⟨_, k2, k3, k4, rfl, ?_, (h1.ok _ _ k1).1⟩
    simp only [content]; rw [k5, k4, List.take_of_length_le (by rw [content_length hv hl])]; rfl
  · obtain ⟨f1, g0, k0, k1, rfl, k2, k3, k4⟩ := full l g hg
    obtain ⟨f1', g0', k0', k1', rfl, k2', k3', k4'⟩ := full l' g' hg'
    rw [hl] at k0; simp only [Option.some.injEq] at k0; subst k0
    rw [hl'] at k0'; simp only [Option.some.injEq] at k0'; subst k0'
    constructor
    · intro e; exact h1.inj _ _ _ _ k1 k1' (.inl e)
    · intro e; rw [e, k1'] at k1; simp only [Option.some.injEq] at k1; subst k1; rfl

/-! ### Two data sets treated alike -/

structure Rel (s s' : Mem K × DSet) : Prop where
  v : Valid s.1 s.2
  v' : Valid s'.1 s'.2
  names : s.2.fields.map Prod.fst = s'.2.fields.map Prod.fst
  link : s'.2.link = s.2.link
  fmt : s.2.fmt ≠ .list ∧ s'.2.fmt ≠ .list
  alike : ∀ l f, s.2.get l = some f → ∃ g, s'.2.get l = some g ∧ g.dim = f.dim ∧ g.len = f.len ∧ g.fin = f.fin ∧ content s'.1 g = content s.1 f
  share : ∀ l l' f f' g g', s.2.get l = some f → s.2.get l' = some f' → s'.2.get l = some g → s'.2.get l' = some g' → (g.buf = g'.buf ↔ f.buf = f'.buf)

theorem rel_none {s s' : Mem K × DSet} (h : Rel s s') {l : String} (hl : s.2.get l = none) : s'.2.get l = none := keys_get _ _ h.names l hl

theorem rel_alloc {s s' : Mem K × DSet} (h : Rel s s') (l : String) (dim : Nat) (c : List (List K)) (fin : Nat) (hf : fin ≤ c.length) :
    Rel (alloc s.1 s.2 l dim c fin) (alloc s'.1 s'.2 l dim c fin) := by
  refine ⟨valid_alloc h.v l dim c fin hf, valid_alloc h.v' l dim c fin hf, keys_dset _ _ h.names _ _ _, h.link, h.fmt, fun q f hq => ?_, fun q q' f f' g g' hq hq' hg hg' => ?_⟩
  · simp only [alloc, get_put] at hq ⊢
    split at hq
    · rename_i e
      simp only [Option.some.injEq] at hq; subst hq
      refine ⟨_, if_pos e, rfl, rfl, rfl, ?_⟩
      rw [content_new _ _ rfl, content_new _ _ rfl]
    · rename_i e
      obtain ⟨g, h1, h2, h3, h4, h5⟩ := h.alike q f hq
      refine ⟨g, by rw [if_neg e]; exact h1, h2, h3, h4, ?_⟩
      rw [content_append _ _ (h.v'.buf q g h1), content_append _ _ (h.v.buf q f hq)]; exact h5
  · simp only [alloc, get_put] at hq hq' hg hg'
    split at hq
    · rename_i e
      rw [if_pos e] at hg
      simp only [Option.some.injEq] at hq hg; subst hq; subst hg
      split at hq'
      · rename_i e'; rw [if_pos e'] at hg'
        simp only [Option.some.injEq] at hq' hg'; subst hq'; subst hg'; simp
      · rename_i e'; rw [if_neg e'] at hg'
        have := h.v.buf q' f' hq'
        have := h.v'.buf q' g' hg'
        constructor <;> intro e <;> simp only at e <;> omega
    · rename_i e
      rw [if_neg e] at hg
      split at hq'
      · rename_i e'; rw [if_pos e'] at hg'
        simp only [Option.some.injEq] at hq' hg'; subst hq'; subst hg'
        have := h.v.buf q f hq
        have := h.v'.buf q g hg
        constructor <;> intro e <;> simp only at e <;> omega
      · rename_i e'; rw [if_neg e'] at hg'
        exact h.share q q' f f' g g' hq hq' hg hg'

theorem rel_poke {s s' : Mem K × DSet} (h : Rel s s') {l : String} {f g : Fld} (hl : s.2.get l = some f) (hg : s'.2.get l = some g) (k : Nat) (r : List K) :
    Rel (poke s.1 f.buf k r, s.2) (poke s'.1 g.buf k r, s'.2) := by
  refine ⟨valid_poke h.v _ _ _, valid_poke h.v' _ _ _, h.names, h.link, h.fmt, fun q f' hq => ?_, h.share⟩
  obtain ⟨g', h1, h2, h3, h4, h5⟩ := h.alike q f' hq
  refine ⟨g', h1, h2, h3, h4, ?_⟩
  simp only
  rw [content_poke _ _ (h.v'.buf q g' h1), content_poke _ _ (h.v.buf q f' hq)]
  have := h.share q l f' f g' g hq hl h1 hg
  by_cases e : f'.buf = f.buf
  · rw [if_pos e, if_pos (this.2 e), h5]
  · rw [if_neg e, if_neg (fun x => e (this.1 x)), h5]

theorem rel_put {s s' : Mem K × DSet} (h : Rel s s') {l : String} {f g : Fld} (hl : s.2.get l = some f) (hg : s'.2.get l = some g) (n : Nat) (hn : n ≤ f.len) :
    Rel (s.1, s.2.put l { f with fin := n }) (s'.1, s'.2.put l { g with fin := n }) := by
  obtain ⟨g1, a1, a2, a3, a4, a5⟩ := h.alike l f hl
  rw [hg] at a1; simp only [Option.some.injEq] at a1; subst a1
  refine ⟨valid_put h.v hl n hn, valid_put h.v' hg n (by omega), keys_dset _ _ h.names _ _ _, h.link, h.fmt, fun q f' hq => ?_, fun q q' f1 f2 g1 g2 hq hq' hg1 hg2 => ?_⟩
  · simp only [get_put] at hq ⊢
    split at hq
    · rename_i e
      simp only [Option.some.injEq] at hq; subst hq
      exact ⟨_, if_pos e, a2, a3, rfl, a5⟩
    · rename_i e; rw [if_neg e]; exact h.alike q f' hq
  · simp only [get_put] at hq hq' hg1 hg2
    have hb : ∀ q x y, (if l = q then some ({ f with fin := n } : Fld) else s.2.get q) = some x → (if l = q then some ({ g with fin := n } : Fld) else s'.2.get q) = some y →
        ∃ x0 y0, s.2.get q = some x0 ∧ s'.2.get q = some y0 ∧ x.buf = x0.buf ∧ y.buf = y0.buf := by
      intro q x y hx hy
      split at hx
      · rename_i e; subst e
        simp only [if_true, Option.some.injEq] at hx hy; subst hx; subst hy
        exact ⟨f, g, hl, hg, rfl, rfl⟩
      · rename_i e; rw [if_neg e] at hy; exact ⟨x, y, hx, hy, rfl, rfl⟩
    obtain ⟨x, y, b1, b2, b3, b4⟩ := hb q f1 g1 hq hg1
    obtain ⟨x', y', c1, c2, c3, c4⟩ := hb q' f2 g2 hq' hg2
    rw [b3, b4, c3, c4]
    exact h.share q q' x x' y y' b1 c1 b2 c2

theorem rel_view {s s' : Mem K × DSet} (h : Rel s s') (l l' : String) {f g : Fld} (hl : s.2.get l' = some f) (hg : s'.2.get l' = some g) :
    Rel ({ s.1 with objs := s.1.objs + 1 }, s.2.put l { obj := s.1.objs, buf := f.buf, dim := f.dim, len := f.fin, fin := f.fin })
      ({ s'.1 with objs := s'.1.objs + 1 }, s'.2.put l { obj := s'.1.objs, buf := g.buf, dim := g.dim, len := g.fin, fin := g.fin }) := by
  obtain ⟨g1, a1, a2, a3, a4, a5⟩ := h.alike l' f hl
  rw [hg] at a1; simp only [Option.some.injEq] at a1; subst a1
  have hfin := h.v.fin l' f hl
  refine ⟨valid_view h.v hl, valid_view h.v' hg, keys_dset _ _ h.names _ _ _, h.link, h.fmt, fun q f' hq => ?_, fun q q' f1 f2 g1 g2 hq hq' hg1 hg2 => ?_⟩
  · simp only [get_put] at hq ⊢
    split at hq
    · rename_i e
      simp only [Option.some.injEq] at hq; subst hq
      refine ⟨_, if_pos e, a2, a4, a4, ?_⟩
      simp only [content] at a5 ⊢
      rw [a4]
      have := congrArg (List.take f.fin) a5
      rwa [List.take_take, List.take_take, a3, min_eq_left hfin] at this
    · rename_i e; rw [if_neg e]; exact h.alike q f' hq
  · simp only [get_put] at hq hq' hg1 hg2
    have hb : ∀ q x y, (if l = q then some ({ obj := s.1.objs, buf := f.buf, dim := f.dim, len := f.fin, fin := f.fin } : Fld) else s.2.get q) = some x →
        (if l = q then some ({ obj := s'.1.objs, buf := g.buf, dim := g.dim, len := g.fin, fin := g.fin } : Fld) else s'.2.get q) = some y →
        ∃ q0 x0 y0, s.2.get q0 = some x0 ∧ s'.2.get q0 = some y0 ∧ x.buf = x0.buf ∧ y.buf = y0.buf := by
      intro q x y hx hy
      split at hx
      · rename_i e; subst e
        simp only [if_true, Option.some.injEq] at hx hy; subst hx; subst hy
        exact ⟨l', f, g, hl, hg, rfl, rfl⟩
      · rename_i e; rw [if_neg e] at hy; exact ⟨q, x, y, hx, hy, rfl, rfl⟩
    obtain ⟨p, x, y, b1, b2, b3, b4⟩ := hb q f1 g1 hq hg1
    obtain ⟨p', x', y', c1, c2, c3, c4⟩ := hb q' f2 g2 hq' hg2
    rw [b3, b4, c3, c4]
    exact h.share p p' x x' y y' b1 c1 b2 c2

theorem rel_appendUnlinked [Zero K] {s s' : Mem K × DSet} (h : Rel s s') (l : String) (row : List K) :
    Rel (appendUnlinked s.1 s.2 l row).1 (appendUnlinked s'.1 s'.2 l row).1 ∧ (appendUnlinked s'.1 s'.2 l row).2 = (appendUnlinked s.1 s.2 l row).2 := by
  unfold appendUnlinked
  cases hl : s.2.get l with
  | none => rw [rel_none h hl]; exact ⟨h, rfl⟩
  | some f0 =>
    obtain ⟨g0, a1, a2, a3, a4, a5⟩ := h.alike l f0 hl
    rw [a1]
    simp only
    rw [a2, a3, a4, a5]
    have hlen := content_length h.v hl
    have h1 : Rel (if f0.len ≤ f0.fin then alloc s.1 s.2 l f0.dim (grown f0.dim (content s.1 f0)) f0.fin else (s.1, s.2))
          (if f0.len ≤ f0.fin then alloc s'.1 s'.2 l f0.dim (grown f0.dim (content s.1 f0)) f0.fin else (s'.1, s'.2)) ∧
        ∃ f, (if f0.len ≤ f0.fin then alloc s.1 s.2 l f0.dim (grown f0.dim (content s.1 f0)) f0.fin else (s.1, s.2)).2.get l = some f ∧ f.fin < f.len := by
      have hfin := h.v.fin l f0 hl
      split
      · refine ⟨rel_alloc h l _ _ _ (by rw [grown_length, hlen]; omega), ⟨_, by simp only [alloc, get_put]; simp; rfl, ?_⟩⟩
        simp only [grown_length, hlen]; omega
      · exact ⟨h, f0, hl, by omega⟩
    generalize (if f0.len ≤ f0.fin then alloc s.1 s.2 l f0.dim (grown f0.dim (content s.1 f0)) f0.fin else (s.1, s.2)) = s1 at h1
    generalize (if f0.len ≤ f0.fin then alloc s'.1 s'.2 l f0.dim (grown f0.dim (content s.1 f0)) f0.fin else (s'.1, s'.2)) = s2 at h1
    obtain ⟨h1, f, hf, hlt⟩ := h1
    obtain ⟨g, b1, b2, b3, b4, b5⟩ := h1.alike l f hf
    rw [hf, b1]
    simp only
    rw [b2]
    cases broadcast f.dim row with
    | none => exact ⟨h1, rfl⟩
    | some r =>
      refine ⟨?_, rfl⟩
      have := rel_put (rel_poke h1 hf b1 f.fin r) hf b1 (f.fin + 1) hlt
      simp only [b4]
      simp only [b2] at this
      exact this

theorem rel_appendAll [Zero K] (xs : List (String × List K)) : ∀ {s s' : Mem K × DSet}, Rel s s' →
    Rel (appendAll s xs).1 (appendAll s' xs).1 ∧ (appendAll s' xs).2 = (appendAll s xs).2 := by
  induction xs with
  | nil => intro s s' h; exact ⟨h, rfl⟩
  | cons x xs ih =>
    intro s s' h
    have h1 := rel_appendUnlinked h x.1 x.2
    simp only [appendAll]
    rcases hr : appendUnlinked s.1 s.2 x.1 x.2 with ⟨t, e⟩
    rcases hr' : appendUnlinked s'.1 s'.2 x.1 x.2 with ⟨t', e'⟩
    rw [hr, hr'] at h1
    obtain ⟨h1, h2⟩ := h1
    simp only at h2
    subst h2
    cases e' with
    | none => exact ih h1
    | some er => exact ⟨h1, rfl⟩

theorem rel_clearAll (ls : List String) : ∀ {s s' : Mem K × DSet}, Rel s s' → Rel (clearAll s ls) (clearAll s' ls) := by
  induction ls with
  | nil => intro s s' h; exact h
  | cons l ls ih =>
    intro s s' h
    simp only [clearAll]
    cases hl : s.2.get l with
    | none => rw [rel_none h hl]; exact ih h
    | some f =>
      obtain ⟨g, a1, a2, -⟩ := h.alike l f hl
      rw [a1]; simp only; rw [a2]
      exact ih (rel_alloc h l _ _ _ (by simp))

theorem rel_index {s s' : Mem K × DSet} (h : Rel s s') (i i' : Int) (lk : List String) :
    Rel (s.1, { s.2 with link := lk, index := i }) (s'.1, { s'.2 with link := lk, index := i' }) :=
  ⟨⟨h.v.1, h.v.2, h.v.3, h.v.4, h.v.5, h.v.6⟩, ⟨h.v'.1, h.v'.2, h.v'.3, h.v'.4, h.v'.5, h.v'.6⟩, h.names, rfl, h.fmt, h.alike, h.share⟩

theorem rel_step [Zero K] {s s' : Mem K × DSet} (h : Rel s s') (o : Op K) : Rel (step s.1 s.2 o).1 (step s'.1 s'.2 o).1 ∧ (step s'.1 s'.2 o).2 = (step s.1 s.2 o).2 := by
  cases o with
  | append l row =>
    simp only [step, h.link]
    split
    · exact ⟨h, rfl⟩
    · exact rel_appendUnlinked h l row
  | appendLinked rs =>
    simp only [step, h.link]
    split
    · exact rel_appendAll _ h
    · exact ⟨h, rfl⟩
  | setNew l dim rs =>
    simp only [step]
    split
    · exact ⟨rel_alloc h _ _ _ _ le_rfl, rfl⟩
    · exact ⟨h, rfl⟩
  | setView l l' =>
    simp only [step]
    cases hl : s.2.get l' with
    | none => rw [rel_none h hl]; exact ⟨h, rfl⟩
    | some f =>
      obtain ⟨g, a1, a2, a3, a4, a5⟩ := h.alike l' f hl
      rw [a1]
      simp only [h.fmt.1, h.fmt.2, if_false]
      exact ⟨rel_view h l l' hl a1, trivial⟩
  | write l i row =>
    simp only [step]
    cases hl : s.2.get l with
    | none => rw [rel_none h hl]; exact ⟨h, rfl⟩
    | some f =>
      obtain ⟨g, a1, a2, a3, a4, a5⟩ := h.alike l f hl
      rw [a1]
      simp only [h.fmt.1, h.fmt.2, if_false, a2, a4]
      split
      · cases broadcast f.dim row with
        | none => exact ⟨h, rfl⟩
        | some r => exact ⟨rel_poke h hl a1 i r, rfl⟩
      · exact ⟨h, rfl⟩
  | unlink => exact ⟨rel_index h _ _ [], rfl⟩
  | clear =>
    simp only [step, h.link, ← h.names]
    exact ⟨rel_clearAll _ (rel_index h 0 0 s.2.link), trivial⟩

theorem rel_run [Zero K] (os : List (Op K)) : ∀ {s s' : Mem K × DSet}, Rel s s' → Rel (run s os).1 (run s' os).1 ∧ (run s' os).2 = (run s os).2 := by
  induction os with
  | nil => intro s s' h; exact ⟨h, rfl⟩
  | cons o os ih =>
    intro s s' h
    obtain ⟨h1, h2⟩ := rel_step h o
    obtain ⟨h3, h4⟩ := ih h1
    exact ⟨h3, by simp only [run, h2, h4]⟩

theorem rel_same {s s' : Mem K × DSet} (h : Rel s s') : Same s.1 s.2 s'.1 s'.2 :=
  ⟨h.names.symm, h.link, fun l f hl => by
    obtain ⟨g, a1, a2, a3, a4, a5⟩ := h.alike l f hl
    exact ⟨g, a1, a2, a4, by simp only [rows, a5, a4]⟩⟩

end Verif.CopySet

namespace Verif.Props
open Verif.Py Verif.CopySet
open Verif.DataSet (Err broadcast)
variable {K : Type}

/-! ### C189 -/

/-- **C189, hypotheses.** Whatever a program does with data sets, their arrays remain as required below. -/
theorem C189_reachable [Zero K] (m : Mem K) (d : DSet) (h : Valid m d) (os : List (Op K)) : Valid (run (m, d) os).1.1 (run (m, d) os).1.2 := by
  let e : DSet := { cls := .dataSet, fields := [], link := [], index := 0, fmt := .none, attrs := { dims := [], nClasses := 0, labels := [], hist := false, currentSeq := 0 } }
  have hn : ∀ l, e.get l = none := fun l => rfl
  exact (frame_run (m0 := m) (e := e) os (s := (m, d)) ⟨h, ⟨fun l f hf => by simp [hn] at hf, fun l f hf => by simp [hn] at hf, fun l f hf => by simp [hn] at hf, fun l f hf => by simp [hn] at hf, by simp [e], fun l l' f f' hf => by simp [hn] at hf⟩,
    fun l l' f g _ hg => by simp [hn] at hg, fun l g hg => by simp [hn] at hg⟩).valid

theorem copy_accepted (c : Cls) : Copyable c ↔ ((ctorArgs c).1 ≤ reduceArgs c ∧ reduceArgs c ≤ (ctorArgs c).2) := by
  cases c <;> simp [Copyable, ctorArgs, reduceArgs]

/-- **C189, copies.** A copy of a data set (not of a class with a constructor of its own) has the same class, fields, rows, links, dimensions and classes,
shares no memory with the original, and the original is as it was. -/
theorem C189_copy (m : Mem K) (d : DSet) (hv : Valid m d) (hc : Copyable d.cls) :
    ∃ m' d', copy m d = .ok (m', d') ∧ Same m d m' d' ∧ Same m d m' d ∧ Apart d d' ∧ Valid m' d' ∧ Valid m' d ∧
      d'.cls = d.cls ∧ d'.attrs.dims = d.attrs.dims ∧ d'.attrs.nClasses = d.attrs.nClasses ∧ d'.attrs.labels = d.attrs.labels := by
  refine ⟨_, _, by unfold copy reconstruct; rw [if_pos ((copy_accepted _).1 hc)], ?_⟩
  simp only
  obtain ⟨⟨bs, hbs⟩, ho, h1, h2, h3, h4⟩ := copy_spec hv (m' := (copyFields m [] d.fields).1)
    (d' := { cls := d.cls, fields := (copyFields m [] d.fields).2, link := d.link, index := 0, fmt := if localCreator d.cls then d.fmt else .none, attrs := { d.attrs with hist := false, currentSeq := 0 } }) rfl rfl
  have hcont : ∀ l f, d.get l = some f → content (copyFields m [] d.fields).1 f = content m f := by
    intro l f hl
    have := content_append m f (hv.buf l f hl) bs (copyFields m [] d.fields).1.objs
    rw [← hbs] at this; exact this
  have hbuf : ∀ l f, d.get l = some f → (copyFields m [] d.fields).1.bufs.getD f.buf [] = m.bufs.getD f.buf [] := by
    intro l f hl
    rw [hbs, List.getD_eq_getElem?_getD, List.getElem?_append_left (hv.buf l f hl), ← List.getD_eq_getElem?_getD]
  refine ⟨⟨h1, rfl, fun l f hl => ?_⟩, ⟨rfl, rfl, fun l f hl => ⟨f, hl, rfl, rfl, by simp only [rows, hcont l f hl]⟩⟩, fun l l' f g hl hg => ?_, h2, ?_, by first | rfl | trivial, by first | rfl | trivial, by first | rfl | trivial, by first | rfl | trivial⟩
  · obtain ⟨g, a1, a2, a3, a4, a5, -⟩ := h3 l f hl
    exact ⟨g, a1, a2, a4, by simp only [rows, a5, a4]⟩
  · have hf := hv.buf l f hl
    cases hl' : d.get l' with
    | none => rw [DSet.get, keys_get _ _ h1.symm l' hl'] at hg; simp at hg
    | some f' =>
      obtain ⟨g', a1, -, -, -, -, a6⟩ := h3 l' f' hl'
      rw [a1] at hg; simp only [Option.some.injEq] at hg; subst hg
      omega
  · refine ⟨fun l f hl => ?_, fun l f hl => ?_, hv.fin, fun l f hl => lt_of_lt_of_le (hv.made l f hl) ho, hv.nodup, hv.obj⟩
    · have := hv.buf l f hl; rw [hbs]; simp; omega
    · rw [hbuf l f hl]; exact hv.len l f hl

/-- **C189, independence.** Whatever is done to the copy, the rows of the original stay as they are, and whatever is done to the original, those of the copy do. -/
theorem C189_independent [Zero K] (m m' : Mem K) (d d' : DSet) (hv : Valid m d) (hc : copy m d = .ok (m', d')) (os : List (Op K)) :
    (∀ l f, d.get l = some f → rows (run (m', d') os).1.1 f = rows m f) ∧ (∀ l g, d'.get l = some g → rows (run (m', d) os).1.1 g = rows m' g) := by
  have hcls : Copyable d.cls := by
    rw [copy_accepted]; by_contra h
    unfold copy reconstruct at hc; rw [if_neg h] at hc; simp at hc
  obtain ⟨m2, d2, h0, h1, h2, h3, h4, h5, -⟩ := C189_copy m d hv hcls
  rw [hc] at h0; simp only [Except.ok.injEq, Prod.mk.injEq] at h0
  obtain ⟨rfl, rfl⟩ := h0
  constructor
  · intro l f hl
    have := (frame_run (m0 := m') (e := d) os (s := (m', d')) ⟨h4, h5, fun a b f g hf hg => (h3 b a g f hg hf).symm, fun _ _ _ => rfl⟩).same l f hl
    obtain ⟨g, a1, -, -, a4⟩ := h2.dims l f hl
    rw [hl] at a1; simp only [Option.some.injEq] at a1; subst a1
    rw [← a4]; simp only [rows, this]
  · intro l g hg
    have := (frame_run (m0 := m') (e := d') os (s := (m', d)) ⟨h5, h4, h3, fun _ _ _ => rfl⟩).same l g hg
    simp only [rows, this]

/-- **C189, the same behaviour** (restricted: the fields of the original share no memory, and fields are not returned as lists). Any program run on the
copy and on the original has the same results and errors. -/
theorem C189_alike_partial [Zero K] (m m' : Mem K) (d d' : DSet) (hv : Valid m d) (hu : Unshared d) (hf : d.fmt ≠ .list) (hc : copy m d = .ok (m', d')) (os : List (Op K)) :
    Same (run (m', d) os).1.1 (run (m', d) os).1.2 (run (m', d') os).1.1 (run (m', d') os).1.2 ∧ (run (m', d') os).2 = (run (m', d) os).2 := by
  have hcls : Copyable d.cls := by
    rw [copy_accepted]; by_contra h
    unfold copy reconstruct at hc; rw [if_neg h] at hc; simp at hc
  obtain ⟨m2, d2, h0, h1, h2, h3, h4, h5, -⟩ := C189_copy m d hv hcls
  rw [hc] at h0; simp only [Except.ok.injEq, Prod.mk.injEq] at h0
  obtain ⟨rfl, rfl⟩ := h0
  unfold copy reconstruct at hc
  rw [if_pos ((copy_accepted _).1 hcls)] at hc
  simp only [Except.ok.injEq, Prod.mk.injEq] at hc
  obtain ⟨hm, hd⟩ := hc
  have hfields : d'.fields = (copyFields m [] d.fields).2 := by rw [← hd]
  obtain ⟨⟨bs, hbs⟩, ho, k1, k2, k3, k4⟩ := copy_spec hv hfields hm.symm
  have hr : Rel (m', d) (m', d') := by
    refine ⟨h5, h4, k1.symm, by rw [← hd], ⟨hf, ?_⟩, fun l f hl => ?_, fun l l' f f' g g' hl hl' hg hg' => ?_⟩
    · rw [← hd]; simp only; split
      · exact hf
      · simp
    · obtain ⟨g, a1, a2, a3, a4, a5, -⟩ := k3 l f hl
      refine ⟨g, a1, a2, a3, a4, a5.trans ?_⟩
      have := content_append m f (hv.buf l f hl) bs m'.objs
      rw [← hbs] at this; exact this.symm
    · rw [k4 l l' f f' g g' hl hl' hg hg']
      constructor
      · intro e; exact (hv.obj l l' f f' hl hl' e).1
      · intro e
        have := hu l l' f f' hl hl' e
        subst this; rw [hl] at hl'; simp only [Option.some.injEq] at hl'; rw [hl']
  obtain ⟨r1, r2⟩ := rel_run os hr
  exact ⟨rel_same r1, r2⟩

theorem copy_compact_get (fs : List (String × Fld)) (l : String) : ∀ k, (∀ f, dget fs l = some f → ∃ o, dget (compactFields k fs) l = some { f with obj := o, len := f.fin } ∧ k ≤ o ∧ o < k + fs.length) ∧
    (dget fs l = none → dget (compactFields k fs) l = none) := by
  induction fs with
  | nil => intro k; exact ⟨fun f h => by simp [dget] at h, fun _ => rfl⟩
  | cons p fs ih =>
    intro k
    obtain ⟨q, g⟩ := p
    simp only [compactFields, dget]
    by_cases e : q = l
    · simp only [e, if_true]
      refine ⟨fun f h => ?_, fun h => by simp at h⟩
      simp only [Option.some.injEq] at h; subst h
      exact ⟨k, rfl, le_rfl, by simp⟩
    · simp only [e, if_false]
      refine ⟨fun f h => ?_, (ih (k + 1)).2⟩
      obtain ⟨o, h1, h2, h3⟩ := (ih (k + 1)).1 f h
      exact ⟨o, h1, by omega, by simp; omega⟩

theorem copy_compact_obj (fs : List (String × Fld)) : ∀ k l l' f f', dget (compactFields k fs) l = some f → dget (compactFields k fs) l' = some f' → f.obj = f'.obj → l = l' := by
  induction fs with
  | nil => intro k l l' f f' h; simp [compactFields, dget] at h
  | cons p fs ih =>
    intro k l l' f f' h h' e
    obtain ⟨q, g⟩ := p
    have low : ∀ x y, dget (compactFields (k + 1) fs) x = some y → k + 1 ≤ y.obj := by
      intro x y hx
      cases hg : dget fs x with
      | none => rw [(copy_compact_get fs x (k + 1)).2 hg] at hx; simp at hx
      | some z =>
        obtain ⟨o, h1, h2, -⟩ := (copy_compact_get fs x (k + 1)).1 z hg
        rw [h1] at hx; simp only [Option.some.injEq] at hx; subst hx; exact h2
    simp only [compactFields, dget] at h h'
    split at h <;> split at h'
    · rename_i e1 e2; exact e1.symm.trans e2
    · simp only [Option.some.injEq] at h; subst h
      have := low _ _ h'; simp only at e; omega
    · simp only [Option.some.injEq] at h'; subst h'
      have := low _ _ h; simp only at e; omega
    · exact ih (k + 1) l l' f f' h h' e

theorem copy_compact_names (fs : List (String × Fld)) : ∀ k, (compactFields k fs).map Prod.fst = fs.map Prod.fst := by
  induction fs with
  | nil => intro k; rfl
  | cons p fs ih => intro k; simp [compactFields, ih]

theorem copy_compacted (m : Mem K) (d : DSet) (hv : Valid m d) (hf : d.fmt ≠ .list ∨ d.fields = []) : ∃ m' d', compacted m d = .ok (m', d') ∧ Valid m' d' ∧ Same m d m' d' ∧
    d'.cls = d.cls ∧ d'.attrs = d.attrs ∧ (∀ l f, d'.get l = some f → f.len = f.fin) := by
  have hnot : ¬ (d.fmt = .list ∧ d.fields ≠ []) := by rintro ⟨h1, h2⟩; rcases hf with h | h; exacts [h h1, h2 h]
  refine ⟨_, _, by unfold compacted; rw [if_neg hnot], ?_⟩
  simp only
  have back : ∀ l g, dget (compactFields m.objs d.fields) l = some g → ∃ f o, d.get l = some f ∧ g = { f with obj := o, len := f.fin } ∧ o < m.objs + d.fields.length := by
    intro l g hg
    cases hl : d.get l with
    | none => rw [(copy_compact_get d.fields l m.objs).2 hl] at hg; simp at hg
    | some f =>
      obtain ⟨o, h1, -, h3⟩ := (copy_compact_get d.fields l m.objs).1 f hl
      rw [h1] at hg; simp only [Option.some.injEq] at hg
      exact ⟨f, o, rfl, hg.symm, h3⟩
  refine ⟨⟨fun l g hg => ?_, fun l g hg => ?_, fun l g hg => ?_, fun l g hg => ?_, ?_, fun l l' g g' hg hg' e => ?_⟩, ⟨copy_compact_names _ _, rfl, fun l f hl => ?_⟩, trivial, trivial, fun l g hg => ?_⟩
  · obtain ⟨f, o, h1, rfl, -⟩ := back l g hg; exact hv.buf l f h1
  · obtain ⟨f, o, h1, rfl, -⟩ := back l g hg; exact le_trans (hv.fin l f h1) (hv.len l f h1)
  · obtain ⟨f, o, h1, rfl, -⟩ := back l g hg; exact le_rfl
  · obtain ⟨f, o, h1, rfl, h⟩ := back l g hg; exact h
  · simp only [copy_compact_names]; exact hv.nodup
  · have := copy_compact_obj d.fields m.objs l l' g g' hg hg' e
    subst this
    have : some g = some g' := hg.symm.trans hg'
    simp only [Option.some.injEq] at this; subst this; exact ⟨rfl, rfl, rfl⟩
  · obtain ⟨o, h1, -⟩ := (copy_compact_get d.fields l m.objs).1 f hl
    refine ⟨_, h1, rfl, rfl, ?_⟩
    simp only [rows, content, List.take_take, min_self, min_eq_left (hv.fin l f hl)]
  · obtain ⟨f, o, h1, rfl, -⟩ := back l g hg; rfl

/-- **C189, files** (restricted to classes other than DataSet, BenchmarkDataSet and those with constructors of their own; compact only if fields are not
returned as lists). A data set written to a file, compact or not, is read with the same class, fields, rows, links, dimensions and classes; the data set that
was written has the same rows as before. -/
theorem C189_saved_partial (m : Mem K) (d : DSet) (hv : Valid m d) (hc : Copyable d.cls) (hl : d.cls ≠ .dataSet ∧ d.cls ≠ .benchmark) (compact : Bool)
    (hf : compact = true → d.fmt ≠ .list) :
    ∃ m' d1 d2, saveLoad m d compact = .ok (m', d1, d2) ∧ Same m d m' d1 ∧ Same m d m' d2 ∧ Apart d1 d2 ∧ d2.cls = d.cls ∧ d2.attrs.dims = d.attrs.dims ∧
      d2.attrs.nClasses = d.attrs.nClasses ∧ d2.attrs.labels = d.attrs.labels ∧ (compact = true → ∀ l g, d2.get l = some g → g.len = g.fin) := by
  have hloc : localCreator d.cls = false := by
    obtain ⟨h1, h2⟩ := hl; obtain ⟨h3, -⟩ := hc
    revert h1 h2 h3; cases d.cls <;> simp [localCreator]
  have trans : ∀ {a b c : Mem K} {x y z : DSet}, Same a x b y → Same b y c z → Same a x c z := by
    intro a b c x y z h1 h2
    refine ⟨h2.names.trans h1.names, h2.link.trans h1.link, fun l f hl => ?_⟩
    obtain ⟨g, a1, a2, a3, a4⟩ := h1.dims l f hl
    obtain ⟨g', b1, b2, b3, b4⟩ := h2.dims l g a1
    exact ⟨g', b1, b2.trans a2, b3.trans a3, b4.trans a4⟩
  cases compact with
  | false =>
    obtain ⟨m', d', h0, h1, h2, h3, h4, h5, h6, h7, h8, h9⟩ := C189_copy m d hv hc
    refine ⟨m', d, d', ?_, h2, h1, h3, h6, h7, h8, h9, fun h => by simp at h⟩
    unfold saveLoad
    simp only [Bool.false_eq_true, if_false, hloc]
    rw [show reconstruct m d = _ from h0]
  | true =>
    obtain ⟨m1, d1, c0, c1, c2, c3, c4, c5⟩ := copy_compacted m d hv (.inl (hf rfl))
    obtain ⟨m', d', h0, h1, h2, h3, h4, h5, h6, h7, h8, h9⟩ := C189_copy m1 d1 c1 (c3 ▸ hc)
    refine ⟨m', d1, d', ?_, trans c2 h2, trans c2 h1, h3, h6.trans c3, by rw [h7, c4], by rw [h8, c4], by rw [h9, c4], fun _ l g hg => ?_⟩
    · unfold saveLoad
      simp only [if_true, c0]
      rw [c3, hloc]
      simp only [Bool.false_eq_true, if_false]
      rw [show reconstruct m1 d1 = _ from h0]
    · unfold copy reconstruct at h0
      rw [if_pos ((copy_accepted _).1 (c3 ▸ hc))] at h0
      simp only [Except.ok.injEq, Prod.mk.injEq] at h0
      obtain ⟨e1, e2⟩ := h0
      have hfields : d'.fields = (copyFields m1 [] d1.fields).2 := by rw [← e2]
      obtain ⟨-, -, k1, -, k3, -⟩ := copy_spec c1 hfields e1.symm
      cases hq : d1.get l with
      | none => rw [DSet.get, keys_get _ _ k1.symm l hq] at hg; simp at hg
      | some f =>
        obtain ⟨g', a1, -, a3, a4, -⟩ := k3 l f hq
        rw [hg] at a1; simp only [Option.some.injEq] at a1; subst a1
        rw [a3, a4]; exact c5 l f hq

/-- **C189, negation (classes with constructors of their own).** LoglhDataSet, SVMData and the data sets of the examples (XORDataSet, ParityDataSet) can be neither
copied nor saved: the constructor is called with the wrong number of arguments. -/
theorem C189_negation_constructor (m : Mem K) (d : DSet) (h : d.cls = .loglh ∨ d.cls = .svmData ∨ d.cls = .xor ∨ d.cls = .parity) :
    copy m d = .error .typeError ∧ ∀ x, saveLoad m d false ≠ .ok x := by
  have hc : reconstruct m d = .error .typeError := by
    unfold reconstruct; rw [if_neg]
    rcases h with h | h | h | h <;> rw [h] <;> decide
  refine ⟨hc, fun x => ?_⟩
  unfold saveLoad
  simp only [Bool.false_eq_true, if_false]
  split
  · simp
  · rw [hc]; simp

/-- **C189, negation (files of plain data sets).** A DataSet (or BenchmarkDataSet) can be copied, but not saved: it names a local function as its constructor,
which cannot be pickled. -/
theorem C189_negation_plain (m : Mem K) (d : DSet) (h : d.cls = .dataSet ∨ d.cls = .benchmark) :
    (∃ x, copy m d = .ok x) ∧ saveLoad m d false = .error .cannotPickle := by
  constructor
  · unfold copy reconstruct; rw [if_pos (by rcases h with h | h <;> rw [h] <;> decide)]; exact ⟨_, rfl⟩
  · unfold saveLoad
    simp only [Bool.false_eq_true, if_false]
    rw [if_pos (by rcases h with h | h <;> rw [h] <;> rfl)]

/-- **C189, negation (compact files).** In the format 'list' no data set with fields can be saved in compact form. -/
theorem C189_negation_compact (m : Mem K) (d : DSet) (h : d.fmt = .list) (hf : d.fields ≠ []) : saveLoad m d true = .error .typeError := by
  unfold saveLoad; simp [compacted, h, hf]

/-- **C189, negation (format and position).** The copy of a data set of any class but DataSet and BenchmarkDataSet has lost the vector format; every copy starts
reading at the first sample, in the first sequence, and has no class statistics. -/
theorem C189_negation_state (m m' : Mem K) (d d' : DSet) (hc : copy m d = .ok (m', d')) :
    (d.cls ≠ .dataSet → d.cls ≠ .benchmark → d'.fmt = .none) ∧ d'.index = 0 ∧ d'.attrs.currentSeq = 0 ∧ d'.attrs.hist = false := by
  unfold copy reconstruct at hc
  split at hc
  · rename_i h
    simp only [Except.ok.injEq, Prod.mk.injEq] at hc
    obtain ⟨-, rfl⟩ := hc
    refine ⟨fun h1 h2 => ?_, rfl, rfl, rfl⟩
    rw [← copy_accepted] at h
    obtain ⟨h3, -⟩ := h
    revert h1 h2 h3
    simp only
    cases d.cls <;> simp [localCreator]
  · simp at hc

/-- **C189, negation (shared fields).** A ClassificationDataSet made of arrays and its copy behave differently: the original's fields `target` and `class` are
the same memory, so that an assignment to a target also changes the class, but not in the copy. -/
theorem C189_negation_shared [Zero K] (m m' : Mem K) (d' : DSet) (indim n : Nat) (inp targets : List (List K)) (labels : List String) (x : K) (i : Nat) (hi : i < targets.length)
    (hc : copy (classification m indim inp targets n labels).1 (classification m indim inp targets n labels).2 = .ok (m', d')) :
    let d := (classification m indim inp targets n labels).2
    let o := (run (m', d) [.write "target" i [x]]).1
    let c := (run (m', d') [.write "target" i [x]]).1
    (∃ f, o.2.get "class" = some f ∧ rows o.1 f = targets.set i [x]) ∧ (∃ g, c.2.get "class" = some g ∧ rows c.1 g = targets) ∧
    (∃ g, c.2.get "target" = some g ∧ rows c.1 g = targets.set i [x]) := by
  have h2 : (m.bufs ++ [inp, targets])[m.bufs.length + 1]? = some targets := by
    rw [List.getElem?_append_right (by omega)]; simp
  have h1 : (m.bufs ++ [inp, targets])[m.bufs.length]? = some inp := by
    rw [List.getElem?_append_right (by omega)]; simp
  simp only [copy, reconstruct, classification, ctorArgs, reduceArgs, copyFields, copyArr, dget, content, List.getD_eq_getElem?_getD, h1, h2] at hc
  simp [localCreator] at hc
  obtain ⟨rfl, rfl⟩ := hc
  refine ⟨?_, ?_, ?_⟩
  all_goals
    simp only [run, step, classification, DSet.get, dget, broadcast]
    simp [hi, poke, rows, content, List.getElem?_append_right]
    simp [dget]
    try rw [List.take_take, min_self, List.take_of_length_le (by simp)]

/-- a data set with three samples -/
private def exMem : Mem Int × DSet := classification { bufs := [], objs := 0 } 2 [[1, 2], [3, 4], [5, 6]] [[0], [1], [0]] 2 ["a", "b"]

example : Valid exMem.1 exMem.2 ∧ Copyable exMem.2.cls ∧ exMem.2.fmt ≠ .list := by
  have key : ∀ l f, exMem.2.get l = some f → (l = "input" ∧ f = { obj := 0, buf := 0, dim := 2, len := 3, fin := 3 }) ∨
      (l = "target" ∧ f = { obj := 1, buf := 1, dim := 1, len := 3, fin := 3 }) ∨ (l = "class" ∧ f = { obj := 2, buf := 1, dim := 1, len := 3, fin := 3 }) := by
    intro l f h
    simp only [exMem, classification, DSet.get, dget] at h
    split at h
    · rename_i e; simp at h; exact .inl ⟨e.symm, h.symm⟩
    · split at h
      · rename_i e; simp at h; exact .inr (.inl ⟨e.symm, h.symm⟩)
      · split at h
        · rename_i e; simp at h; exact .inr (.inr ⟨e.symm, h.symm⟩)
        · simp at h
  refine ⟨⟨fun l f h => ?_, fun l f h => ?_, fun l f h => ?_, fun l f h => ?_, by decide, fun l l' f f' h h' e => ?_⟩, by simp [Copyable, exMem, classification], by decide⟩
  · rcases key l f h with ⟨-, rfl⟩ | ⟨-, rfl⟩ | ⟨-, rfl⟩ <;> decide
  · rcases key l f h with ⟨-, rfl⟩ | ⟨-, rfl⟩ | ⟨-, rfl⟩ <;> decide
  · rcases key l f h with ⟨-, rfl⟩ | ⟨-, rfl⟩ | ⟨-, rfl⟩ <;> decide
  · rcases key l f h with ⟨-, rfl⟩ | ⟨-, rfl⟩ | ⟨-, rfl⟩ <;> decide
  · rcases key l f h with ⟨-, rfl⟩ | ⟨-, rfl⟩ | ⟨-, rfl⟩ <;> rcases key l' f' h' with ⟨-, rfl⟩ | ⟨-, rfl⟩ | ⟨-, rfl⟩ <;> revert e <;> decide

end Verif.Props
