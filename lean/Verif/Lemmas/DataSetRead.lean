import Verif.Lemmas.DataSetLock
/- Reading rows: getLinked, iteration and batches. -/
namespace Verif.DataSet
open Verif.Py

variable {K : Type}

theorem read_ok (d : DS K) (hd : d.WF) (i : Nat) (ls : List String) (n : Nat) (hi : i < n)
    (h : ∀ l ∈ ls, (d.getField l).map List.length = some n) :
    ∃ rs, DS.getLinked.read d i ls = .ok rs ∧ ls.mapM (fun l => (d.getField l).bind (fun t => t[i]?)) = some rs := by
  induction ls with
  | nil => exact ⟨[], rfl, rfl⟩
  | cons l rest ih =>
    obtain ⟨rs, h1, h2⟩ := ih (fun q hq => h q (by simp [hq]))
    have hl := h l (by simp)
    cases hf : d.get l with
    | none => simp [DS.getField, hf] at hl
    | some f =>
      have hw := hd.1 l f hf
      simp only [DS.getField, hf, Option.map_some, Option.some.injEq] at hl
      rw [hw.rows_length] at hl
      have hib : i < f.buf.length := by have := hw.1; omega
      have hrow : f.rows[i]? = some f.buf[i] := by
        simp only [Field.rows]
        rw [List.getElem?_take_of_lt (by omega), List.getElem?_eq_getElem hib]
      refine ⟨f.buf[i] :: rs, ?_, ?_⟩
      · unfold DS.getLinked.read
        rw [hf]; simp only [getIdx_ofNat, List.getElem?_eq_getElem hib, h1]
      · rw [List.mapM_cons, h2]
        simp [DS.getField, hf, hrow]

theorem getLength_of_lockstep (d : DS K) (hd : d.WF) (hlink : d.link ≠ []) (n : Nat)
    (h : ∀ l ∈ d.link, (d.getField l).map List.length = some n) : d.getLength = some n := by
  unfold DS.getLength
  cases hl : d.link with
  | nil => exact absurd hl hlink
  | cons l rest =>
    have h0 := h l (by simp [hl])
    cases hf : d.get l with
    | none => simp [DS.getField, hf] at h0
    | some f =>
      simp only [DS.getField, hf, Option.map_some, Option.some.injEq] at h0
      rw [(hd.1 l f hf).rows_length] at h0
      simp [hf, h0]

theorem getLinked_ok (d : DS K) (hd : d.WF) (hlink : d.link ≠ []) (n : Nat)
    (h : ∀ l ∈ d.link, (d.getField l).map List.length = some n) (oi : Option Int) (i : Nat)
    (hoi : oi.getD d.index = (i : Int)) (hi : i < n) :
    ∃ rs, d.getLinked oi = ({ d with index := (i : Int) + 1 }, .ok rs) ∧
      d.link.mapM (fun l => (d.getField l).bind (fun t => t[i]?)) = some rs := by
  obtain ⟨rs, h1, h2⟩ := read_ok d hd i d.link n hi h
  refine ⟨rs, ?_, h2⟩
  unfold DS.getLinked
  rw [if_neg hlink, getLength_of_lockstep d hd hlink n h]
  have : ¬ ((i : Int) ≥ (n : Int)) := by omega
  simp only [hoi, this, if_false, h1]

theorem drain_ok (n : Nat) (k : Nat) (d : DS K) (hd : d.WF) (hlink : d.link ≠ [])
    (h : ∀ l ∈ d.link, (d.getField l).map List.length = some n) (i : Nat) (hik : i + k = n)
    (hidx : d.index = (i : Int)) (fuel : Nat) (hfuel : k < fuel) :
    ∃ rows, d.drain fuel = some (rows, { d with index := (n : Int) }) ∧
      rows.length = k ∧ ∀ j, j < k →
        d.link.mapM (fun l => (d.getField l).bind (fun t => t[i + j]?)) = rows[j]? := by
  induction k generalizing d i fuel with
  | zero =>
    obtain ⟨f, rfl⟩ : ∃ f, fuel = f + 1 := ⟨fuel - 1, by omega⟩
    refine ⟨[], ?_, rfl, by omega⟩
    unfold DS.drain DS.endOfData
    rw [getLength_of_lockstep d hd hlink n h]
    have : d.index = (n : Int) := by omega
    simp only [Option.map_some, this, decide_true]
    congr 2
    cases d; simp_all
  | succ k ih =>
    obtain ⟨f, rfl⟩ : ∃ f, fuel = f + 1 := ⟨fuel - 1, by omega⟩
    obtain ⟨rs, h1, h2⟩ := getLinked_ok d hd hlink n h none i (by simp [hidx]) (by omega)
    obtain ⟨rows, h3, h4, h5⟩ := ih { d with index := (i : Int) + 1 } hd hlink h (i + 1) (by omega) (by simp) f (by omega)
    refine ⟨rs :: rows, ?_, by simp [h4], ?_⟩
    · unfold DS.drain DS.endOfData
      rw [getLength_of_lockstep d hd hlink n h]
      have : ¬ (d.index = (n : Int)) := by omega
      simp only [Option.map_some, this, decide_false, h1, h3]
    · intro j hj
      cases j with
      | zero => simpa using h2
      | succ j =>
        have := h5 j (by omega)
        simp only [List.getElem?_cons_succ]
        rw [← this]
        have e : i + (j + 1) = i + 1 + j := by omega
        rw [e]
        rfl

theorem batchBounds_eq (len n : Nat) (hn : 0 < n) :
    batchBounds len n = (List.range ((len + n - 1) / n)).map (fun i => (i * n, min ((i + 1) * n) len)) := by
  have hnum : (if len % n = 0 then len / n else len / n + 1) = (len + n - 1) / n := by
    have hdm := Nat.div_add_mod len n
    have hlt := Nat.mod_lt len hn
    split
    · rename_i h
      symm
      apply Nat.div_eq_of_lt_le
      · rw [Nat.mul_comm]; omega
      · rw [Nat.mul_comm, Nat.mul_add]; omega
    · rename_i h
      symm
      apply Nat.div_eq_of_lt_le
      · rw [Nat.mul_comm, Nat.mul_add]; omega
      · rw [Nat.mul_comm, Nat.mul_add, Nat.mul_add]; omega
  unfold batchBounds
  simp only [hnum]
  generalize hm : (len + n - 1) / n = m
  have h1 : m * n < len + n := by
    have := Nat.div_mul_le_self (len + n - 1) n
    rw [hm] at this; omega
  have h2 : len ≤ m * n := by
    have := Nat.lt_div_mul_add (a := len + n - 1) hn
    rw [hm] at this; omega
  apply List.ext_getElem?
  intro i
  by_cases hi : i < m
  · rw [(List.getElem?_zip_eq_some (z := (i * n, min ((i + 1) * n) len))).2]
    · simp [hi]
    · constructor
      · simp [hi]
      · by_cases h3 : i < m - 1
        · have : (i + 1) * n ≤ (m - 1) * n := Nat.mul_le_mul_right n (by omega)
          have e : (m - 1) * n = m * n - n := by rw [Nat.sub_mul, Nat.one_mul]
          have : min ((i + 1) * n) len = (i + 1) * n := by omega
          rw [List.getElem?_append_left (by simpa using h3)]
          simp [h3, this]
        · have : i + 1 = m := by omega
          rw [List.getElem?_append_right (by simp; omega)]
          have e : min ((i + 1) * n) len = len := by rw [this]; omega
          rw [e]
          simp
          have : i - (m - 1) = 0 := by omega
          simp [this]
  · rw [List.getElem?_eq_none (by simp; omega), List.getElem?_eq_none (by simp; omega)]

theorem flatten_chunks {α : Type} (l : List α) (n m : Nat) :
    ((List.range m).map (fun i => (l.take ((i + 1) * n)).drop (i * n))).flatten = l.take (m * n) := by
  induction m with
  | zero => simp
  | succ m ih =>
    rw [List.range_succ, List.map_append, List.flatten_append, ih]
    simp only [List.map_cons, List.map_nil, List.flatten_cons, List.flatten_nil, List.append_nil]
    have : l.take (m * n) = (l.take ((m + 1) * n)).take (m * n) := by
      rw [List.take_take]; congr 1
      have : m * n ≤ (m + 1) * n := Nat.mul_le_mul_right n (by omega)
      omega
    rw [this, List.take_append_drop]

/-- Unpermuted batches are the consecutive chunks of the field. -/
theorem batches_eq (d : DS K) (l : String) (n : Nat) (hn : 0 < n) (rows : List (List K))
    (hd : d.WF) (hl : d.getField l = some rows) (hlen : d.getLength = some rows.length) :
    d.batches l n none = .ok ((List.range ((rows.length + n - 1) / n)).map
      (fun i => (rows.take ((i + 1) * n)).drop (i * n))) := by
  unfold DS.batches
  rw [hlen]
  have hn' : n ≠ 0 := by omega
  cases hf : d.get l with
  | none => simp [DS.getField, hf] at hl
  | some f =>
    simp only [hn', if_false]
    simp only [DS.getField, hf, Option.map_some, Option.some.injEq] at hl
    have hw := hd.1 l f hf
    have hfin : f.fin = rows.length := by rw [← hw.rows_length, hl]
    congr 1
    rw [batchBounds_eq _ _ hn, List.map_map]
    apply List.map_congr_left
    intro i hi
    simp only [Function.comp]
    have := slice_ofNat f.buf (i * n) (min ((i + 1) * n) rows.length)
    rw [this, ← hl]
    simp only [Field.rows, List.take_take, List.length_take]
    congr 2
    have := hw.1
    omega

theorem mapM_map_some {α β γ : Type} (l : List α) (f : α → Option β) (g : α → Option γ) (h : β → γ)
    (hfg : ∀ a, g a = (f a).map h) : l.mapM g = (l.mapM f).map (List.map h) := by
  induction l with
  | nil => rfl
  | cons a rest ih =>
    rw [List.mapM_cons, List.mapM_cons, ih, hfg]
    cases f a with
    | none => rfl
    | some b =>
      cases rest.mapM f with
      | none => rfl
      | some bs => rfl

/-- Permuted batches are the unpermuted ones, picked in the given order. -/
theorem batches_perm_eq (d : DS K) (l : String) (n : Nat) (bs : List (List (List K))) (π : List Nat)
    (h : d.batches l n none = .ok bs) :
    d.batches l n (some π) = match π.mapM (fun i => bs[i]?) with
      | none => .error .indexError
      | some bs' => .ok bs' := by
  unfold DS.batches at *
  cases hlen : d.getLength with
  | none => rw [hlen] at h; simp at h
  | some len =>
    rw [hlen] at h
    simp only at h ⊢
    by_cases hn : n = 0
    · simp [hn] at h
    · simp only [hn, if_false] at h ⊢
      cases hf : d.get l with
      | none => rw [hf] at h; simp at h
      | some f =>
        rw [hf] at h
        simp only [Except.ok.injEq] at h ⊢
        subst h
        rw [mapM_map_some π (fun i => (batchBounds len n)[i]?) (fun i => ((batchBounds len n).map (fun p => slice f.buf p.1 p.2))[i]?)
          (fun p => slice f.buf p.1 p.2) (by intro a; simp)]
        cases π.mapM (fun i => (batchBounds len n)[i]?) with
        | none => rfl
        | some x => rfl

end Verif.DataSet
