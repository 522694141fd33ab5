import Verif.Spec.Decomposable
import Verif.Model.Connections
import Mathlib.Data.List.Nodup
import Mathlib.Tactic.Ring
import Mathlib.Tactic.Linarith
/-!
C85: the decomposition of a network's parameters by neurons.
-/

namespace Verif.Decomp
open Spec

variable {M K : Type} [DecidableEq M]

/-- the numbers (counted from `w`) of the entries that belong to neuron `k` -/
def indicesFrom (n : Net M) (is : List (Neuron M × Neuron M)) (w : Nat) (k : Neuron M) : List Nat :=
  ((is.zipIdx w).filter fun e => owner n e.1 = k).map Prod.snd

theorem indicesFrom_cons (n : Net M) (i : Neuron M × Neuron M) (is : List (Neuron M × Neuron M)) (w : Nat) (k : Neuron M) :
    indicesFrom n (i :: is) w k = (if owner n i = k then [w] else []) ++ indicesFrom n is (w + 1) k := by
  unfold indicesFrom
  rw [List.zipIdx_cons, List.filter_cons]
  by_cases h : owner n i = k <;> simp [h]

theorem mem_indicesFrom {n : Net M} {is : List (Neuron M × Neuron M)} {w v : Nat} {k : Neuron M} :
    v ∈ indicesFrom n is w k ↔ ∃ (h : w ≤ v ∧ v - w < is.length), owner n (is[v - w]'h.2) = k := by
  unfold indicesFrom
  simp only [List.mem_map, List.mem_filter, decide_eq_true_eq]
  constructor
  · rintro ⟨⟨a, v'⟩, ⟨hmem, ho⟩, rfl⟩
    rw [List.mem_zipIdx_iff_le_and_getElem?_sub] at hmem
    obtain ⟨h1, h2⟩ := hmem
    dsimp only at h1 h2 ho ⊢
    obtain ⟨hl, he⟩ := List.getElem?_eq_some_iff.1 h2
    exact ⟨⟨h1, hl⟩, by rw [he]; exact ho⟩
  · rintro ⟨h, ho⟩
    exact ⟨(is[v - w]'h.2, v), ⟨by rw [List.mem_zipIdx_iff_le_and_getElem?_sub]; exact ⟨h.1, by simp [List.getElem?_eq_getElem h.2]⟩, ho⟩, rfl⟩

theorem pairwise_indicesFrom (n : Net M) : ∀ (is : List (Neuron M × Neuron M)) (w : Nat) (k : Neuron M), (indicesFrom n is w k).Pairwise (· < ·)
  | [], w, k => by simp [indicesFrom]
  | i :: is, w, k => by
    rw [indicesFrom_cons]
    have ih := pairwise_indicesFrom n is (w + 1) k
    split
    · rw [List.singleton_append, List.pairwise_cons]
      refine ⟨fun v hv => ?_, ih⟩
      obtain ⟨h, -⟩ := mem_indicesFrom.1 hv
      omega
    · simpa using ih

theorem fill_eq (n : Net M) : ∀ (is : List (Neuron M × Neuron M)) (w : Nat) (D : Indices M),
    fill n is w D = if (∀ i ∈ is, owner n i ∈ D.map Prod.fst) then .ok (D.map fun e => (e.1, e.2 ++ indicesFrom n is w e.1)) else .error .keyError
  | [], w, D => by simp [fill, indicesFrom]
  | i :: is, w, D => by
    rw [fill, appendAt]
    by_cases h : owner n i ∈ D.map Prod.fst
    · rw [if_pos h]
      dsimp only
      rw [fill_eq n is]
      have hkeys : (D.map fun e => if e.1 = owner n i then (e.1, e.2 ++ [w]) else e).map Prod.fst = D.map Prod.fst := by
        rw [List.map_map]
        apply List.map_congr_left
        intro e _
        simp only [Function.comp_apply]
        split <;> rfl
      rw [hkeys]
      have hmap : ((D.map fun e => if e.1 = owner n i then (e.1, e.2 ++ [w]) else e).map fun e => (e.1, e.2 ++ indicesFrom n is (w + 1) e.1)) =
          D.map fun e => (e.1, e.2 ++ indicesFrom n (i :: is) w e.1) := by
        rw [List.map_map]
        apply List.map_congr_left
        intro e _
        simp only [Function.comp_apply, indicesFrom_cons]
        by_cases he : e.1 = owner n i
        · rw [if_pos he, if_pos he.symm]; simp
        · rw [if_neg he, if_neg (fun h => he h.symm)]; simp
      rw [hmap]
      simp only [List.forall_mem_cons]
      by_cases h2 : ∀ j ∈ is, owner n j ∈ D.map Prod.fst
      · rw [if_pos h2, if_pos ⟨h, h2⟩]
      · rw [if_neg h2, if_neg (fun h' => h2 h'.2)]
    · rw [if_neg h, if_neg]
      intro h'
      exact h (h' i (List.mem_cons_self ..))

theorem mem_neuronIterator {n : Net M} {k : Neuron M} : k ∈ neuronIterator n ↔ IsNeuron n k := by
  obtain ⟨m, i⟩ := k
  simp [neuronIterator, IsNeuron]

theorem nodup_neuronIterator {n : Net M} (h : n.modules.Nodup) : (neuronIterator n).Nodup := by
  unfold neuronIterator
  rw [List.nodup_flatMap]
  refine ⟨fun m _ => (List.nodup_range).map (fun a b hab => by simpa using hab), h.imp ?_⟩
  intro a b hab
  rw [Function.onFun, List.disjoint_left]
  rintro ⟨m, i⟩ h1 h2
  simp only [List.mem_map, Prod.mk.injEq] at h1 h2
  obtain ⟨_, _, h1, _⟩ := h1
  obtain ⟨_, _, h2, _⟩ := h2
  exact hab (h1.trans h2.symm)

/-- When sorting succeeds, and with what. -/
theorem sortModules_eq {n : Net M} {D : Indices M} (h : sortModules n = .ok D) :
    ∃ info, parameterInfo n.layers n.containers = .ok info ∧ (∀ i ∈ info, owner n i ∈ neuronIterator n) ∧
      D = (neuronIterator n).map fun k => (k, indicesFrom n info 0 k) := by
  unfold sortModules at h
  cases hp : parameterInfo n.layers n.containers with
  | error e => rw [hp] at h; simp at h
  | ok info =>
    rw [hp] at h
    dsimp only at h
    rw [fill_eq] at h
    have hk : ((neuronIterator n).map fun k => (k, ([] : List Nat))).map Prod.fst = neuronIterator n := by
      rw [List.map_map]; exact List.map_id _
    rw [hk] at h
    split at h
    · rename_i hall
      refine ⟨info, rfl, hall, ?_⟩
      rw [Except.ok.injEq] at h
      rw [← h, List.map_map]
      simp [Function.comp_def]
    · simp at h

theorem sortModules_ok {n : Net M} {info : List (Neuron M × Neuron M)} (hp : parameterInfo n.layers n.containers = .ok info)
    (h : ∀ i ∈ info, owner n i ∈ neuronIterator n) : ∃ D, sortModules n = .ok D := by
  unfold sortModules
  rw [hp]
  dsimp only
  rw [fill_eq]
  have hk : ((neuronIterator n).map fun k => (k, ([] : List Nat))).map Prod.fst = neuronIterator n := by
    rw [List.map_map]; exact List.map_id _
  rw [hk, if_pos h]
  exact ⟨_, rfl⟩

theorem lookup_map (l : List (Neuron M)) (g : Neuron M → List Nat) (k : Neuron M) :
    lookup (l.map fun k => (k, g k)) k = if k ∈ l then some (g k) else none := by
  unfold lookup
  induction l with
  | nil => simp
  | cons a l ih =>
    rw [List.map_cons, List.find?_cons]
    by_cases h : a = k
    · simp [h]
    · have h' : ¬ k = a := fun e => h e.symm
      simp only [h, decide_false, Bool.false_eq_true, if_false, List.mem_cons, h', false_or]
      exact ih

theorem containerInfo_length {L : Layers M} {x : Container M} {l : List (Neuron M × Neuron M)} (h : containerInfo L x = .ok l) :
    l.length = x.paramdim := by
  cases x with
  | full a b c d e f => simp only [containerInfo, Except.ok.injEq] at h; rw [← h]; simp
  | layer m p => simp only [containerInfo, Except.ok.injEq] at h; rw [← h]; simp [Container.paramdim]
  | other p => simp [containerInfo] at h

theorem parameterInfo_length {L : Layers M} : ∀ {xs : List (Container M)} {l : List (Neuron M × Neuron M)}, parameterInfo L xs = .ok l →
    l.length = (xs.map Container.paramdim).sum
  | [], l, h => by simp only [parameterInfo, Except.ok.injEq] at h; simp [← h]
  | x :: xs, l, h => by
    rw [parameterInfo] at h
    cases h1 : containerInfo L x with
    | error e => rw [h1] at h; simp at h
    | ok l1 =>
      rw [h1] at h
      dsimp only at h
      cases h2 : parameterInfo L xs with
      | error e => rw [h2] at h; simp at h
      | ok l2 =>
        rw [h2] at h
        simp only [Except.ok.injEq] at h
        rw [← h, List.length_append, containerInfo_length h1, parameterInfo_length h2]
        simp

/-- The entries of a container are in the list at its offset. -/
theorem parameterInfo_at {L : Layers M} : ∀ {pre : List (Container M)} {x : Container M} {post : List (Container M)} {l : List (Neuron M × Neuron M)},
    parameterInfo L (pre ++ x :: post) = .ok l → ∃ lx, containerInfo L x = .ok lx ∧
      ∀ (i : Nat), i < x.paramdim → l[(pre.map Container.paramdim).sum + i]? = lx[i]?
  | [], x, post, l, h => by
    rw [List.nil_append, parameterInfo] at h
    cases h1 : containerInfo L x with
    | error e => rw [h1] at h; simp at h
    | ok lx =>
      rw [h1] at h
      dsimp only at h
      cases h2 : parameterInfo L post with
      | error e => rw [h2] at h; simp at h
      | ok l2 =>
        rw [h2] at h
        simp only [Except.ok.injEq] at h
        refine ⟨lx, rfl, fun i hi => ?_⟩
        rw [← h]
        simp only [List.map_nil, List.sum_nil, Nat.zero_add]
        rw [List.getElem?_append_left]
        rw [containerInfo_length h1]; exact hi
  | p :: pre, x, post, l, h => by
    rw [List.cons_append, parameterInfo] at h
    cases h1 : containerInfo L p with
    | error e => rw [h1] at h; simp at h
    | ok lp =>
      rw [h1] at h
      dsimp only at h
      cases h2 : parameterInfo L (pre ++ x :: post) with
      | error e => rw [h2] at h; simp at h
      | ok l2 =>
        rw [h2] at h
        simp only [Except.ok.injEq] at h
        obtain ⟨lx, hlx, hi⟩ := parameterInfo_at h2
        refine ⟨lx, hlx, fun i hi' => ?_⟩
        rw [← h, List.map_cons, List.sum_cons, Nat.add_assoc, List.getElem?_append_right (by rw [containerInfo_length h1]; omega),
          containerInfo_length h1, Nat.add_sub_cancel_left]
        exact hi i hi'

/-- The constructed information is the specified one when no connection is sliced. -/
theorem parameterInfo_connects {n : Net M} {info : List (Neuron M × Neuron M)} (h : parameterInfo n.layers n.containers = .ok info)
    (hu : ∀ c ∈ n.containers, Unsliced n.layers c) {w : Nat} {a b : Neuron M} (hc : Connects n w a b) : info[w]? = some (a, b) := by
  cases hc with
  | full pre post inmod outmod inFrom indim outFrom outdim i j at_ hi hj =>
    have hs : Unsliced n.layers (.full inmod outmod inFrom indim outFrom outdim) := hu _ (by rw [at_]; simp)
    obtain ⟨h1, h2, h3⟩ := hs
    rw [at_] at h
    obtain ⟨lx, hlx, hat⟩ := parameterInfo_at h
    have hlt : j * indim + i < indim * outdim := by
      calc j * indim + i < j * indim + indim := by omega
        _ = indim * (j + 1) := by ring
        _ ≤ indim * outdim := Nat.mul_le_mul_left _ hj
    rw [hat (j * indim + i) hlt]
    simp only [containerInfo, Except.ok.injEq] at hlx
    rw [← hlx, List.getElem?_map, List.getElem?_range (by exact hlt)]
    simp only [Option.map_some, whichBuffers, ← h2, h1, h3, Nat.zero_add]
    have hpos : 0 < indim := by omega
    rw [Nat.mul_add_mod_self_right, Nat.mod_eq_of_lt hi, Nat.mul_comm j indim, Nat.mul_add_div hpos, Nat.div_eq_of_lt hi, Nat.add_zero]
  | layer pre post m paramdim i at_ hi =>
    rw [at_] at h
    obtain ⟨lx, hlx, hat⟩ := parameterInfo_at h
    rw [hat i hi]
    simp only [containerInfo, Except.ok.injEq] at hlx
    rw [← hlx, List.getElem?_map, List.getElem?_range hi]
    rfl

/-! ### writing and reading -/

/-- the non-empty lists of indices in the order of the neurons -/
def rows (D : Indices M) (ks : List (Neuron M)) : List (List Nat) := (ks.filterMap (lookup D)).filter fun l => l ≠ []

theorem get_go (D : Indices M) (params : Nat → K) : ∀ (ks : List (Neuron M)), (∀ k ∈ ks, lookup D k ≠ none) →
    getDecomposition.go D params ks = .ok ((rows D ks).map fun l => l.map params)
  | [], _ => by simp [getDecomposition.go, rows]
  | k :: ks, h => by
    have ih := get_go D params ks fun k hk => h k (List.mem_cons_of_mem _ hk)
    rw [getDecomposition.go]
    cases hl : lookup D k with
    | none => exact absurd hl (h k (List.mem_cons_self ..))
    | some l =>
      dsimp only
      rw [ih]
      dsimp only
      unfold rows
      rw [List.filterMap_cons, hl]
      dsimp only
      cases l with
      | nil => simp
      | cons a l => simp

/-- writing the rows one after the other -/
def setRows : List (List Nat) → List (List K) → (Nat → K) → Except Err (Nat → K)
  | [], _, params => .ok params
  | _ :: _, [], _ => .error .indexError
  | l :: ls, row :: d, params =>
    match setRow row l 0 params with
    | .error e => .error e
    | .ok params' => setRows ls d params'

theorem setLoop_eq (D : Indices M) (d : List (List K)) : ∀ (ks : List (Neuron M)) (nindex : Nat) (params : Nat → K), (∀ k ∈ ks, lookup D k ≠ none) →
    setLoop D d ks nindex params = setRows (rows D ks) (d.drop nindex) params
  | [], _, _, _ => by simp [setLoop, rows, setRows]
  | k :: ks, nindex, params, h => by
    have h' : ∀ k ∈ ks, lookup D k ≠ none := fun k hk => h k (List.mem_cons_of_mem _ hk)
    rw [setLoop]
    cases hl : lookup D k with
    | none => exact absurd hl (h k (List.mem_cons_self ..))
    | some l =>
      dsimp only
      have hrows : rows D (k :: ks) = (if l ≠ [] then [l] else []) ++ rows D ks := by
        unfold rows
        rw [List.filterMap_cons, hl]
        dsimp only
        rw [List.filter_cons]
        cases l <;> simp
      rw [hrows]
      cases l with
      | nil =>
        simp only [List.length_nil, gt_iff_lt, Nat.lt_irrefl, if_false, ne_eq, not_true_eq_false, List.nil_append]
        exact setLoop_eq D d ks nindex params h'
      | cons a l =>
        simp only [List.length_cons, gt_iff_lt, Nat.zero_lt_succ, if_true, ne_eq, reduceCtorEq, not_false_eq_true, List.singleton_append]
        by_cases hn : nindex < d.length
        · rw [List.getElem?_eq_getElem hn]
          dsimp only
          rw [List.drop_eq_getElem_cons hn, setRows]
          cases hs : setRow d[nindex] (a :: l) 0 params with
          | error e => rfl
          | ok p' => exact setLoop_eq D d ks (nindex + 1) p' h'
        · rw [List.getElem?_eq_none (by omega), List.drop_of_length_le (by omega), setRows]

theorem setRow_spec (row : List K) : ∀ (l : List Nat) (i : Nat) (params : Nat → K), l.Nodup →
    (i + l.length ≤ row.length ∨ l = [] → ∃ q, setRow row l i params = .ok q) ∧
    ∀ q, setRow row l i params = .ok q → (∀ w, w ∉ l → q w = params w) ∧ ∀ (j : Nat) (hj : j < l.length), row[i + j]? = some (q l[j])
  | [], i, params, _ => by
    refine ⟨fun _ => ⟨params, rfl⟩, fun q hq => ?_⟩
    simp only [setRow, Except.ok.injEq] at hq
    subst hq
    exact ⟨fun _ _ => rfl, fun j hj => absurd hj (by simp)⟩
  | a :: l, i, params, hnd => by
    rw [List.nodup_cons] at hnd
    constructor
    · intro h
      have hlt : i < row.length := by simp at h; omega
      rw [setRow, List.getElem?_eq_getElem hlt]
      dsimp only
      exact (setRow_spec row l (i + 1) _ hnd.2).1 (Or.inl (by simp at h; omega))
    · intro q hq
      rw [setRow] at hq
      cases hv : row[i]? with
      | none => rw [hv] at hq; simp at hq
      | some v =>
        rw [hv] at hq
        dsimp only at hq
        obtain ⟨h1, h2⟩ := (setRow_spec row l (i + 1) _ hnd.2).2 q hq
        refine ⟨fun w hw => ?_, fun j hj => ?_⟩
        · rw [List.mem_cons, not_or] at hw
          rw [h1 w hw.2, if_neg hw.1]
        · cases j with
          | zero => simp only [Nat.add_zero, List.getElem_cons_zero]; rw [h1 a hnd.1, if_pos rfl]; exact hv
          | succ j =>
            rw [List.getElem_cons_succ, ← h2 j (by simpa using hj)]
            congr 1
            omega

/-- `d` has a long enough row for every list of indices -/
def Fits (ls : List (List Nat)) (d : List (List K)) : Prop :=
  ls.length ≤ d.length ∧ ∀ (r : Nat) (h : r < ls.length) (h' : r < d.length), ls[r].length ≤ d[r].length

theorem setRows_spec : ∀ (ls : List (List Nat)) (d : List (List K)) (params : Nat → K), ls.flatten.Nodup →
    (Fits ls d → ∃ q, setRows ls d params = .ok q) ∧
    ∀ q, setRows ls d params = .ok q → (∀ w, w ∉ ls.flatten → q w = params w) ∧
      ∀ (r : Nat) (hr : r < ls.length), ∃ row, d[r]? = some row ∧ ∀ (j : Nat) (hj : j < ls[r].length), row[j]? = some (q (ls[r][j]))
  | [], d, params, _ => by
    refine ⟨fun _ => ⟨params, rfl⟩, fun q hq => ?_⟩
    simp only [setRows, Except.ok.injEq] at hq
    subst hq
    exact ⟨fun _ _ => rfl, fun r hr => absurd hr (by simp)⟩
  | l :: ls, [], params, hnd => by
    refine ⟨fun h => absurd h.1 (by simp), fun q hq => by simp [setRows] at hq⟩
  | l :: ls, row :: d, params, hnd => by
    rw [List.flatten_cons, List.nodup_append] at hnd
    obtain ⟨hn1, hn2, hdis⟩ := hnd
    obtain ⟨s1, s2⟩ := setRow_spec row l 0 params hn1
    rw [setRows]
    constructor
    · intro h
      obtain ⟨p', hp⟩ := s1 (Or.inl (by have := h.2 0 (by simp) (by simp); simpa using this))
      rw [hp]
      dsimp only
      refine (setRows_spec ls d p' hn2).1 ⟨by have := h.1; simpa using this, fun r h1 h2 => ?_⟩
      have := h.2 (r + 1) (by simpa using h1) (by simpa using h2)
      simpa using this
    · intro q hq
      cases hp : setRow row l 0 params with
      | error e => rw [hp] at hq; simp at hq
      | ok p' =>
        rw [hp] at hq
        dsimp only at hq
        obtain ⟨t1, t2⟩ := s2 p' hp
        obtain ⟨h1, h2⟩ := (setRows_spec ls d p' hn2).2 q hq
        refine ⟨fun w hw => ?_, fun r hr => ?_⟩
        · rw [List.flatten_cons, List.mem_append, not_or] at hw
          rw [h1 w hw.2, t1 w hw.1]
        · cases r with
          | zero =>
            refine ⟨row, rfl, fun j hj => ?_⟩
            simp only [List.getElem_cons_zero] at hj ⊢
            have := t2 j hj
            rw [Nat.zero_add] at this
            rw [this, h1]
            intro hmem
            exact hdis _ (List.getElem_mem hj) _ hmem rfl
          | succ r =>
            obtain ⟨row', hr1, hr2⟩ := h2 r (by simpa using hr)
            exact ⟨row', by simpa using hr1, hr2⟩

theorem rows_eq {n : Net M} {D : Indices M} {info : List (Neuron M × Neuron M)} (hD : D = (neuronIterator n).map fun k => (k, indicesFrom n info 0 k)) :
    rows D (neuronIterator n) = ((neuronIterator n).map (indicesFrom n info 0)).filter fun l => l ≠ [] := by
  unfold rows
  congr 1
  have : ∀ ks : List (Neuron M), (∀ k ∈ ks, k ∈ neuronIterator n) → ks.filterMap (lookup D) = ks.map (indicesFrom n info 0) := by
    intro ks
    induction ks with
    | nil => simp
    | cons k ks ih =>
      intro h
      have hl : lookup D k = some (indicesFrom n info 0 k) := by rw [hD, lookup_map, if_pos (h k (List.mem_cons_self ..))]
      rw [List.filterMap_cons, hl]
      dsimp only
      rw [ih fun k hk => h k (List.mem_cons_of_mem _ hk), List.map_cons]
  exact this _ fun k hk => hk

theorem flatten_filter_ne_nil {α : Type} [DecidableEq α] (ls : List (List α)) : (ls.filter fun l => l ≠ []).flatten = ls.flatten := by
  induction ls with
  | nil => rfl
  | cons l ls ih => cases l <;> simp_all

theorem rows_nodup {n : Net M} (hn : n.modules.Nodup) (info : List (Neuron M × Neuron M)) :
    ((neuronIterator n).map (indicesFrom n info 0)).flatten.Nodup := by
  rw [List.nodup_flatten]
  constructor
  · intro l hl
    obtain ⟨k, -, rfl⟩ := List.mem_map.1 hl
    exact (pairwise_indicesFrom n info 0 k).imp fun h => Nat.ne_of_lt h
  · rw [List.pairwise_map]
    refine (nodup_neuronIterator hn).imp ?_
    intro a b hab
    rw [List.disjoint_left]
    intro w h1 h2
    obtain ⟨_, h1⟩ := mem_indicesFrom.1 h1
    obtain ⟨_, h2⟩ := mem_indicesFrom.1 h2
    exact hab (h1.symm.trans h2)

theorem mem_rows {n : Net M} {info : List (Neuron M × Neuron M)} (h : ∀ i ∈ info, owner n i ∈ neuronIterator n) (w : Nat) :
    w ∈ ((neuronIterator n).map (indicesFrom n info 0)).flatten ↔ w < info.length := by
  rw [List.mem_flatten]
  constructor
  · rintro ⟨l, hl, hw⟩
    obtain ⟨k, -, rfl⟩ := List.mem_map.1 hl
    obtain ⟨⟨_, hlt⟩, -⟩ := mem_indicesFrom.1 hw
    omega
  · intro hw
    refine ⟨_, List.mem_map.2 ⟨owner n info[w], h _ (List.getElem_mem hw), rfl⟩, ?_⟩
    exact mem_indicesFrom.2 ⟨⟨Nat.zero_le _, by omega⟩, by simp⟩

end Verif.Decomp

namespace Verif.Props
open Verif.Decomp Verif.Decomp.Spec

variable {M K : Type} [DecidableEq M]

/-- **C85**: sorting the modules gives every parameter of the network to exactly one neuron of the network; each neuron has a list of numbers of
parameters in increasing order. -/
theorem C85_partition (n : Net M) (D : Indices M) (h : sortModules n = .ok D) :
    (∀ w < n.paramdim, ∃! k, IsNeuron n k ∧ ∃ l, lookup D k = some l ∧ w ∈ l) ∧
    (∀ k, IsNeuron n k → ∃ l, lookup D k = some l ∧ l.Pairwise (· < ·) ∧ ∀ w ∈ l, w < n.paramdim) := by
  obtain ⟨info, hp, hall, hD⟩ := sortModules_eq h
  have hlen : info.length = n.paramdim := parameterInfo_length hp
  have hlook : ∀ k, IsNeuron n k → lookup D k = some (indicesFrom n info 0 k) := fun k hk => by
    rw [hD, lookup_map, if_pos (mem_neuronIterator.2 hk)]
  constructor
  · intro w hw
    rw [← hlen] at hw
    have hk := mem_neuronIterator.1 (hall _ (List.getElem_mem hw))
    refine ⟨owner n info[w], ⟨hk, _, hlook _ hk, mem_indicesFrom.2 ⟨⟨Nat.zero_le _, by omega⟩, by simp⟩⟩, ?_⟩
    rintro k ⟨hk', l, hl, hmem⟩
    rw [hlook k hk', Option.some.injEq] at hl
    rw [← hl] at hmem
    obtain ⟨_, ho⟩ := mem_indicesFrom.1 hmem
    rw [← ho]
    simp
  · intro k hk
    refine ⟨_, hlook k hk, pairwise_indicesFrom n info 0 k, fun w hw => ?_⟩
    obtain ⟨⟨_, hlt⟩, -⟩ := mem_indicesFrom.1 hw
    omega

/-- **C85**, partial: without slices, a parameter that leads from neuron `a` to neuron `b` is given to the neuron it belongs to and to no other. What is
missing are sliced connections, see `C85_negation_slice`. -/
theorem C85_owner_partial (n : Net M) (D : Indices M) (h : sortModules n = .ok D) (hu : ∀ c ∈ n.containers, Unsliced n.layers c)
    (w : Nat) (a b : Neuron M) (hc : Connects n w a b) (k : Neuron M) (l : List Nat) (hl : lookup D k = some l) : w ∈ l ↔ Belongs n a b k := by
  obtain ⟨info, hp, hall, hD⟩ := sortModules_eq h
  have hw := parameterInfo_connects hp hu hc
  obtain ⟨hlt, he⟩ := List.getElem?_eq_some_iff.1 hw
  rw [hD, lookup_map] at hl
  split at hl
  · rw [Option.some.injEq] at hl
    rw [← hl, mem_indicesFrom]
    have ho : (∃ (h : 0 ≤ w ∧ w - 0 < info.length), owner n (info[w - 0]'h.2) = k) ↔ owner n (a, b) = k := by
      rw [← he]
      exact ⟨fun ⟨_, h⟩ => by simpa using h, fun h => ⟨⟨Nat.zero_le _, by simpa using hlt⟩, by simpa using h⟩⟩
    rw [ho]
    unfold owner Belongs
    dsimp only
    by_cases hb : n.espStyle = true ∧ b.1 ∈ n.outmodules
    · rw [if_pos (by simpa using hb), if_pos hb]; exact eq_comm
    · rw [if_neg (by simpa using hb), if_neg hb]; exact eq_comm
  · simp at hl

/-- **C85**: what `Connects` says about a full connection is what the connection computes: changing the parameter in row `j` and column `i` changes the
`j`-th input of the second layer in proportion to the `i`-th output of the first, and no other. -/
theorem C85_weight {V P : Type} (outmod : V) (pc : P) (from_ to_ c d i j : Nat) (hi : i < to_ - from_) (p : Nat → ℝ) (v : ℝ) (inbuf : Nat → ℝ) (j' : Nat) :
    (Net.fullConnection outmod pc from_ to_ c d).fwd (Function.update p (j * (to_ - from_) + i) (p (j * (to_ - from_) + i) + v)) inbuf j' =
    (Net.fullConnection outmod pc from_ to_ c d).fwd p inbuf j' + if j' = j then v * inbuf i else 0 := by
  simp only [Net.fullConnection]
  have hterm : ∀ i' ∈ Finset.range (to_ - from_),
      Function.update p (j * (to_ - from_) + i) (p (j * (to_ - from_) + i) + v) (j' * (to_ - from_) + i') * inbuf i' =
      p (j' * (to_ - from_) + i') * inbuf i' + if i' = i ∧ j' = j then v * inbuf i else 0 := by
    intro i' hi'
    rw [Finset.mem_range] at hi'
    by_cases h : i' = i ∧ j' = j
    · rw [if_pos h, h.1, h.2, Function.update_self]; ring
    · rw [if_neg h, Function.update_of_ne, add_zero]
      intro he
      apply h
      generalize to_ - from_ = e at *
      have hpos : 0 < e := by omega
      have h1 : (j' * e + i') % e = (j * e + i) % e := by rw [he]
      have h2 : (j' * e + i') / e = (j * e + i) / e := by rw [he]
      rw [Nat.mul_add_mod_self_right, Nat.mul_add_mod_self_right, Nat.mod_eq_of_lt hi', Nat.mod_eq_of_lt hi] at h1
      rw [Nat.mul_comm j', Nat.mul_comm j, Nat.mul_add_div hpos, Nat.mul_add_div hpos, Nat.div_eq_of_lt hi', Nat.div_eq_of_lt hi] at h2
      exact ⟨h1, by simpa using h2⟩
  rw [Finset.sum_congr rfl hterm, Finset.sum_add_distrib]
  congr 1
  by_cases hj : j' = j
  · simp only [hj, and_true, if_true]
    rw [Finset.sum_ite_eq' (Finset.range (to_ - from_)) i (fun _ => v * inbuf i), if_pos (Finset.mem_range.2 hi)]
  · simp [hj]

/-- **C85**: sorting succeeds when the network consists of full connections, possibly sliced at their end only, and layers with at most one own parameter per
neuron, all between layers that were added, whose inputs and outputs belong to their neurons. -/
theorem C85_succeeds (n : Net M) (hu : ∀ c ∈ n.containers, Unsliced n.layers c)
    (hfull : ∀ inmod outmod inFrom indim outFrom outdim, Container.full inmod outmod inFrom indim outFrom outdim ∈ n.containers →
      inmod ∈ n.modules ∧ outmod ∈ n.modules ∧ (∀ i < indim, n.layers.outNeuron inmod i < n.layers.dim inmod) ∧
      ∀ j < outdim, n.layers.inNeuron outmod j < n.layers.dim outmod)
    (hlayer : ∀ m p, Container.layer m p ∈ n.containers → m ∈ n.modules ∧ p ≤ n.layers.dim m)
    (hother : ∀ p, Container.other p ∉ n.containers) : ∃ D, sortModules n = .ok D := by
  have key : ∀ cs : List (Container M), (∀ c ∈ cs, c ∈ n.containers) →
      ∃ info, parameterInfo n.layers cs = .ok info ∧ ∀ i ∈ info, IsNeuron n i.1 ∧ IsNeuron n i.2 := by
    intro cs
    induction cs with
    | nil => exact fun _ => ⟨[], rfl, by simp⟩
    | cons c cs ih =>
      intro hcs
      obtain ⟨info, hinfo, hi⟩ := ih fun c hc => hcs c (List.mem_cons_of_mem _ hc)
      have hc := hcs c (List.mem_cons_self ..)
      have hone : ∃ l, containerInfo n.layers c = .ok l ∧ ∀ i ∈ l, IsNeuron n i.1 ∧ IsNeuron n i.2 := by
        cases c with
        | full inmod outmod inFrom indim outFrom outdim =>
          obtain ⟨h1, h2, h3, h4⟩ := hfull _ _ _ _ _ _ hc
          obtain ⟨-, hd, -⟩ := hu _ hc
          refine ⟨_, rfl, ?_⟩
          intro i hmem
          rw [List.mem_map] at hmem
          obtain ⟨w, hw, rfl⟩ := hmem
          simp only [Container.paramdim, List.mem_range] at hw
          have hpos : 0 < indim := by
            rcases Nat.eq_zero_or_pos indim with h | h
            · rw [h, Nat.zero_mul] at hw; omega
            · exact h
          refine ⟨⟨h1, h3 _ ?_⟩, ⟨h2, h4 _ ?_⟩⟩
          · simp only [whichBuffers, ← hd]; exact Nat.mod_lt _ hpos
          · simp only [whichBuffers, ← hd]; exact Nat.div_lt_of_lt_mul hw
        | layer m p =>
          obtain ⟨h1, h2⟩ := hlayer _ _ hc
          refine ⟨_, rfl, ?_⟩
          intro i hmem
          rw [List.mem_map] at hmem
          obtain ⟨w, hw, rfl⟩ := hmem
          rw [List.mem_range] at hw
          exact ⟨⟨h1, by dsimp only; omega⟩, ⟨h1, by dsimp only; omega⟩⟩
        | other p => exact absurd hc (hother p)
      obtain ⟨l, hl, hli⟩ := hone
      refine ⟨l ++ info, by rw [parameterInfo, hl]; dsimp only; rw [hinfo], ?_⟩
      intro i hmem
      rw [List.mem_append] at hmem
      rcases hmem with h | h
      · exact hli i h
      · exact hi i h
  obtain ⟨info, hinfo, hi⟩ := key n.containers fun c hc => hc
  refine sortModules_ok hinfo fun i hmem => mem_neuronIterator.2 ?_
  unfold owner
  split
  · exact (hi i hmem).1
  · exact (hi i hmem).2

/-- **C85**: reading the decomposition and writing it back, into any parameters, restores the parameters; neither call raises. -/
theorem C85_restore (n : Net M) (hn : n.modules.Nodup) (D : Indices M) (h : sortModules n = .ok D) (params params' : Nat → K) :
    ∃ d q, getDecomposition n D params = .ok d ∧ setDecomposition n D d params' = .ok q ∧
      (∀ w < n.paramdim, q w = params w) ∧ ∀ w, n.paramdim ≤ w → q w = params' w := by
  obtain ⟨info, hp, hall, hD⟩ := sortModules_eq h
  have hlen : info.length = n.paramdim := parameterInfo_length hp
  have hlook : ∀ k ∈ neuronIterator n, lookup D k ≠ none := fun k hk => by
    rw [hD, lookup_map, if_pos hk]; simp
  have hget := get_go D params _ hlook
  have hflat : (rows D (neuronIterator n)).flatten = ((neuronIterator n).map (indicesFrom n info 0)).flatten := by
    rw [rows_eq hD, flatten_filter_ne_nil]
  have hnd : (rows D (neuronIterator n)).flatten.Nodup := by rw [hflat]; exact rows_nodup hn info
  obtain ⟨s1, s2⟩ := setRows_spec (rows D (neuronIterator n)) ((rows D (neuronIterator n)).map fun l => l.map params) params' hnd
  obtain ⟨q, hq⟩ := s1 ⟨by simp, fun r h1 h2 => by simp⟩
  obtain ⟨t1, t2⟩ := s2 q hq
  refine ⟨_, q, hget, ?_, fun w hw => ?_, fun w hw => ?_⟩
  · unfold setDecomposition
    rw [setLoop_eq D _ _ _ _ hlook, List.drop_zero]
    exact hq
  · rw [← hlen, ← mem_rows hall, ← hflat, List.mem_flatten] at hw
    obtain ⟨l, hl, hwl⟩ := hw
    obtain ⟨r, hr, rfl⟩ := List.mem_iff_getElem.1 hl
    obtain ⟨j, hj, rfl⟩ := List.mem_iff_getElem.1 hwl
    obtain ⟨row, hr1, hr2⟩ := t2 r hr
    rw [List.getElem?_map, List.getElem?_eq_getElem hr, Option.map_some, Option.some.injEq] at hr1
    have := hr2 j hj
    rw [← hr1, List.getElem?_map, List.getElem?_eq_getElem hj, Option.map_some, Option.some.injEq] at this
    exact this.symm
  · refine t1 w fun hmem => ?_
    rw [hflat, mem_rows hall, hlen] at hmem
    omega

/-- The rows a decomposition has: one per neuron with parameters, in the order of the neurons, as long as the neuron has parameters. -/
def DecompositionShape (n : Net M) (D : Indices M) (d : List (List K)) : Prop :=
  d.map List.length = ((neuronIterator n).map fun k => ((lookup D k).getD []).length).filter fun x => x ≠ 0

/-- **C85**: a decomposition of the right shape can be written, and is what is then read; nothing but the parameters of the network is written. -/
theorem C85_write (n : Net M) (hn : n.modules.Nodup) (D : Indices M) (h : sortModules n = .ok D) (params : Nat → K) (d : List (List K))
    (hd : DecompositionShape n D d) :
    ∃ q, setDecomposition n D d params = .ok q ∧ getDecomposition n D q = .ok d ∧ ∀ w, n.paramdim ≤ w → q w = params w := by
  obtain ⟨info, hp, hall, hD⟩ := sortModules_eq h
  have hlen : info.length = n.paramdim := parameterInfo_length hp
  have hlook : ∀ k ∈ neuronIterator n, lookup D k ≠ none := fun k hk => by
    rw [hD, lookup_map, if_pos hk]; simp
  have hflat : (rows D (neuronIterator n)).flatten = ((neuronIterator n).map (indicesFrom n info 0)).flatten := by
    rw [rows_eq hD, flatten_filter_ne_nil]
  have hnd : (rows D (neuronIterator n)).flatten.Nodup := by rw [hflat]; exact rows_nodup hn info
  have hshape : d.map List.length = (rows D (neuronIterator n)).map List.length := by
    rw [hd, rows_eq hD]
    have : ((neuronIterator n).map fun k => ((lookup D k).getD []).length) = ((neuronIterator n).map (indicesFrom n info 0)).map List.length := by
      rw [List.map_map]
      apply List.map_congr_left
      intro k hk
      rw [hD, lookup_map, if_pos hk]
      rfl
    rw [this, List.filter_map]
    congr 1
    apply List.filter_congr
    intro l _
    cases l <;> simp
  have hl : d.length = (rows D (neuronIterator n)).length := by simpa using congrArg List.length hshape
  have hrow : ∀ (r : Nat) (h1 : r < (rows D (neuronIterator n)).length) (h2 : r < d.length), d[r].length = (rows D (neuronIterator n))[r].length := by
    intro r h1 h2
    have := congrArg (fun l => l[r]?) hshape
    simpa [h1, h2] using this
  obtain ⟨s1, s2⟩ := setRows_spec (rows D (neuronIterator n)) d params hnd
  obtain ⟨q, hq⟩ := s1 ⟨by omega, fun r h1 h2 => by rw [hrow r h1 h2]⟩
  obtain ⟨t1, t2⟩ := s2 q hq
  refine ⟨q, ?_, ?_, fun w hw => t1 w fun hmem => ?_⟩
  · unfold setDecomposition
    rw [setLoop_eq D _ _ _ _ hlook, List.drop_zero]
    exact hq
  · refine (get_go D q _ hlook).trans ?_
    rw [Except.ok.injEq]
    apply List.ext_getElem
    · simp [hl]
    · intro r h1 h2
      rw [List.getElem_map]
      have h1' : r < (rows D (neuronIterator n)).length := by simpa using h1
      obtain ⟨row, hr1, hr2⟩ := t2 r h1'
      rw [List.getElem?_eq_getElem h2, Option.some.injEq] at hr1
      apply List.ext_getElem
      · rw [List.length_map, hrow r h1' h2]
      · intro j h3 h4
        rw [List.getElem_map]
        have := hr2 j (by simpa using h3)
        rw [← hr1, List.getElem?_eq_getElem h4, Option.some.injEq] at this
        exact this.symm
  · rw [hflat, mem_rows hall, hlen] at hmem
    omega

/-- the layers of the examples: input 0 (two neurons), hidden 1 (three) and output 2 (one), all plain -/
def exampleLayers : Layers Nat := { dim := fun m => [2, 3, 1].getD m 0, outdim := fun m => [2, 3, 1].getD m 0, inNeuron := fun _ i => i, outNeuron := fun _ i => i }

/-- **C85 violated by sliced connections**: a connection of the second of two input neurons to the three hidden neurons. Its first parameter leads from input
neuron 1 to hidden neuron 0, its second to hidden neuron 1, but both are given to hidden neuron 0, and hidden neuron 2 has none. -/
theorem C85_negation_slice : ∃ (n : Net Nat) (D : Indices Nat), sortModules n = .ok D ∧ Connects n 1 (0, 1) (1, 1) ∧ Belongs n (0, 1) (1, 1) (1, 1) ∧
    lookup D (1, 0) = some [0, 1] ∧ lookup D (1, 1) = some [2] ∧ lookup D (1, 2) = some [] := by
  refine ⟨⟨exampleLayers, [0, 1, 2], [2], [.full 0 1 1 1 0 3], true⟩, _, rfl, ?_, ?_, ?_, ?_, ?_⟩
  · exact Connects.full [] [] 0 1 1 1 0 3 0 1 rfl (by decide) (by decide)
  · unfold Belongs; rw [if_neg (by decide)]
  all_goals decide

/-- **C85 violated by layers with more than one own parameter per neuron**, like LSTM layers with peepholes (three per cell): sorting raises a KeyError, for
every such network, whatever else it contains, unless it has components that make it fail earlier. -/
theorem C85_negation_peepholes (n : Net M) (m : M) (p : Nat) (hm : Container.layer m p ∈ n.containers) (hp : n.layers.dim m < p)
    (hother : ∀ q, Container.other q ∉ n.containers) : sortModules n = .error .keyError := by
  cases hi : parameterInfo n.layers n.containers with
  | error e =>
    exfalso
    have key : ∀ cs : List (Container M), (∀ c ∈ cs, c ∈ n.containers) → ∃ info, parameterInfo n.layers cs = .ok info := by
      intro cs
      induction cs with
      | nil => exact fun _ => ⟨[], rfl⟩
      | cons c cs ih =>
        intro hcs
        obtain ⟨info, hinfo⟩ := ih fun c hc => hcs c (List.mem_cons_of_mem _ hc)
        cases c with
        | full a b c d e f => exact ⟨_, by rw [parameterInfo, containerInfo]; dsimp only; rw [hinfo]⟩
        | layer m p => exact ⟨_, by rw [parameterInfo, containerInfo]; dsimp only; rw [hinfo]⟩
        | other p => exact absurd (hcs _ (List.mem_cons_self ..)) (hother p)
    obtain ⟨info, h⟩ := key n.containers fun c hc => hc
    rw [h] at hi
    cases hi
  | ok info =>
    unfold sortModules
    rw [hi]
    dsimp only
    rw [fill_eq]
    have hk : ((neuronIterator n).map fun k => (k, ([] : List Nat))).map Prod.fst = neuronIterator n := by
      rw [List.map_map]; exact List.map_id _
    rw [hk, if_neg]
    intro hall
    obtain ⟨pre, post, hsplit⟩ := List.append_of_mem hm
    rw [hsplit] at hi
    obtain ⟨lx, hlx, hat⟩ := parameterInfo_at hi
    have := hat (n.layers.dim m) hp
    simp only [containerInfo, Except.ok.injEq] at hlx
    rw [← hlx, List.getElem?_map, List.getElem?_range hp, Option.map_some] at this
    have hmem := mem_neuronIterator.1 (hall _ (List.mem_of_getElem? this))
    have : owner n ((m, n.layers.dim m), (m, n.layers.dim m)) = (m, n.layers.dim m) := by unfold owner; split <;> rfl
    rw [this] at hmem
    exact Nat.lt_irrefl _ hmem.2

/-- **C85 violated by layers with several inputs per neuron**, like the gate layers (two): a full connection into such a layer raises a KeyError. -/
theorem C85_negation_gates : ∃ n : Net Nat, n.modules.Nodup ∧ (∀ c ∈ n.containers, Unsliced n.layers c) ∧ sortModules n = .error .keyError := by
  refine ⟨⟨exampleLayers, [0, 2], [], [.full 0 2 0 2 0 2], true⟩, by decide, ?_, rfl⟩
  intro c hc
  rw [List.mem_singleton] at hc
  subst hc
  exact ⟨rfl, rfl, rfl⟩

/-- **C85 violated by other connections with parameters**, like linear or shared ones: sorting fails. -/
theorem C85_negation_other (n : Net M) (p : Nat) (h : Container.other p ∈ n.containers) : sortModules n = .error .runtimeError := by
  have key : ∀ cs : List (Container M), Container.other p ∈ cs → parameterInfo n.layers cs = .error .runtimeError := by
    intro cs
    induction cs with
    | nil => simp
    | cons c cs ih =>
      intro hc
      cases c with
      | other q => rfl
      | full a b c d e f =>
        rw [parameterInfo, containerInfo]
        dsimp only
        rw [ih (by simpa using hc)]
      | layer m q =>
        rw [parameterInfo, containerInfo]
        dsimp only
        rw [ih (by simpa using hc)]
  unfold sortModules
  rw [key _ h]

/-- Two inputs, three hidden neurons and an output neuron: the hidden neurons have their incoming weights (numbers `2 j` and `2 j + 1`) and, because of the ESP
style, the weight to the output. -/
example : ∃ D, sortModules ⟨exampleLayers, [0, 1, 2], [2], [.full 0 1 0 2 0 3, .full 1 2 0 3 0 1], true⟩ = .ok D ∧
    lookup D (1, 1) = some [2, 3, 7] ∧ lookup D (2, 0) = some [] ∧
    getDecomposition ⟨exampleLayers, [0, 1, 2], [2], [.full 0 1 0 2 0 3, .full 1 2 0 3 0 1], true⟩ D (fun w => 10 * w) =
      .ok [[0, 10, 60], [20, 30, 70], [40, 50, 80]] := ⟨_, rfl, by decide, by decide, by decide⟩

end Verif.Props
