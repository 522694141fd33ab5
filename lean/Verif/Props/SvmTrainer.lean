import Verif.Spec.SvmTrainer
import Mathlib.Data.List.Induction
import Mathlib.Tactic.Linarith
import Mathlib.Tactic.FieldSimp
import Mathlib.Tactic.NormNum
/-
C184: the trainer and the unit for support vector machines.
-/
namespace Verif.Svm
open Verif.Py Verif.Svm.Spec

variable {P I T Mo : Type}

/-- keys occur once -/
def Keys (kw : KW P) : Prop := (kw.map Prod.fst).Nodup

theorem dget_update (params kw : KW P) (hk : Keys kw) (k : String) :
    dget (update params kw) k = match dget kw k with
      | some v => some v
      | none => dget params k := by
  induction kw generalizing params with
  | nil => simp [update, dget]
  | cons p kw ih =>
    obtain ⟨k', v⟩ := p
    simp only [Keys, List.map_cons, List.nodup_cons] at hk
    have h := ih (dset params k' v) hk.2
    have e : update params ((k', v) :: kw) = update (dset params k' v) kw := rfl
    rw [e, h]
    by_cases hkk : k' = k
    · subst hkk
      have hnone : dget kw k' = none := by
        have hgen : ∀ l : KW P, k' ∉ l.map Prod.fst → dget l k' = none := by
          intro l
          induction l with
          | nil => intro _; rfl
          | cons q l ih2 =>
            intro hq
            obtain ⟨a, b⟩ := q
            simp only [List.map_cons, List.mem_cons, not_or] at hq
            simp [dget, Ne.symm hq.1, ih2 hq.2]
        exact hgen kw hk.1
      simp [hnone, dget, dget_dset]
    · simp [dget, hkk, dget_dset]

theorem dget_pop (name : String) (kw : KW P) (k : String) : dget (pop name kw) k = if k = name then none else dget kw k := by
  induction kw with
  | nil => simp [pop, dget]
  | cons p kw ih =>
    obtain ⟨k', v⟩ := p
    by_cases h : k' = name
    · subst h
      have e : pop k' ((k', v) :: kw) = pop k' kw := by simp [pop]
      rw [e, ih]
      by_cases hk : k = k'
      · simp [hk]
      · simp [hk, dget, Ne.symm hk]
    · have e : pop name ((k', v) :: kw) = (k', v) :: pop name kw := by simp [pop, h]
      rw [e]
      by_cases hk : k' = k
      · subst hk; simp [dget, h]
      · simp [dget, hk, ih]

theorem keys_pop (name : String) (kw : KW P) (h : Keys kw) : Keys (pop name kw) := by
  unfold Keys pop
  exact List.Nodup.sublist (List.Sublist.map _ List.filter_sublist) h

theorem dget_translate (name key : String) (f : P → P) (kw params : KW P) (k : String) :
    dget (translate name key f kw params) k = if key = k then (match dget kw name with
      | some v => some (f v)
      | none => dget params k) else dget params k := by
  unfold translate
  cases dget kw name with
  | none => simp
  | some v => simp only [dget_dset]

/-- one call -/
theorem dget_setParams (W : Vals P) (kw params : KW P) (hk : Keys kw) (hp : ∀ k, k = "log2C" ∨ k = "log2g" ∨ k = "searchlog" → dget params k = none) (k : String) :
    dget (setParams W kw params) k = match given W k kw with
      | some v => some v
      | none => dget params k := by
  unfold setParams
  rw [dget_update _ _ (keys_pop _ _ (keys_pop _ _ (keys_pop _ _ hk)))]
  simp only [dget_pop, dget_translate]
  unfold given
  by_cases h1 : k = "log2C"
  · subst h1; simp
  · by_cases h2 : k = "log2g"
    · subst h2; simp
    · by_cases h3 : k = "searchlog"
      · subst h3; simp
      · simp only [h1, h2, h3, or_self, if_false]
        cases hd : dget kw k with
        | some v => rfl
        | none =>
          by_cases hC : k = "C"
          · subst hC
            simp
            cases dget kw "log2C" <;> rfl
          · by_cases hG : k = "gamma"
            · subst hG
              simp
              cases dget kw "log2g" <;> rfl
            · by_cases hN : k = "nr_weight"
              · subst hN
                simp
                cases dget kw "weight" <;> rfl
              · simp [hC, hG, hN, Ne.symm hC, Ne.symm hG, Ne.symm hN]

/-- the keyword arguments of a history are proper -/
def Proper (ops : List (Op P I T)) : Prop := ∀ o ∈ ops, ∀ kw, args o = some kw → Keys kw

theorem param_call (W : Vals P) (key : String) (ops : List (Op P I T)) (o : Op P I T) (kw : KW P) (ha : args o = some kw) :
    paramAfter W key (ops ++ [o]) = match given W key kw with
      | some v => some v
      | none => paramAfter W key ops := by
  unfold paramAfter
  rw [List.filterMap_append, List.filterMap_append]
  simp only [List.filterMap_cons, ha, List.filterMap_nil]
  cases given W key kw with
  | none => simp
  | some v => simp

theorem param_other (W : Vals P) (key : String) (ops : List (Op P I T)) (o : Op P I T) (ha : args o = none) : paramAfter W key (ops ++ [o]) = paramAfter W key ops := by
  unfold paramAfter
  rw [List.filterMap_append, List.filterMap_append]
  simp [ha]

theorem special_none (W : Vals P) (ops : List (Op P I T)) (k : String) (h : k = "log2C" ∨ k = "log2g" ∨ k = "searchlog") : paramAfter W k ops = none := by
  unfold paramAfter
  have e : given W k = fun _ => none := by
    funext kw
    simp [given, h]
  rw [e]
  have : k ≠ "kernel_type" := by rcases h with rfl | rfl | rfl <;> decide
  simp [this]

theorem run_params (W : Vals P) (L : Lib P I T Mo) (data : List (I × T)) (unit : Mo) (file : Option String) (ops : List (Op P I T)) (hp : Proper ops) :
    (∀ k, dget (run W L (init W L data unit file) ops).params k = paramAfter W k ops) ∧ (run W L (init W L data unit file) ops).data = dataAfter data ops ∧
      (run W L (init W L data unit file) ops).svmtarget = data.map Prod.snd := by
  induction ops using List.reverseRecOn with
  | nil =>
    refine ⟨fun k => ?_, rfl, rfl⟩
    simp only [run, List.foldl_nil, init, paramAfter, List.filterMap_nil, List.getLast?_nil]
    by_cases h : k = "kernel_type"
    · subst h; simp [dget]
    · simp [dget, h, Ne.symm h]
  | append_singleton ops o ih =>
    obtain ⟨i1, i2, i3⟩ := ih (fun o' ho' => hp o' (by simp [ho']))
    have e : run W L (init W L data unit file) (ops ++ [o]) = step W L (run W L (init W L data unit file) ops) o := by simp [run]
    rw [e]
    have hset : ∀ kw, args o = some kw → ∀ k, dget (setParams W kw (run W L (init W L data unit file) ops).params) k = paramAfter W k (ops ++ [o]) := by
      intro kw ha k
      rw [param_call W k ops o kw ha, dget_setParams W kw _ (hp o (by simp) kw ha) (fun k hk => by rw [i1, special_none W ops k hk]), i1]
    cases o with
    | params kw => exact ⟨hset kw rfl, by simpa [step, dataAfter, List.filterMap_append] using i2, i3⟩
    | train kw => exact ⟨hset kw rfl, by simpa [step, dataAfter, List.filterMap_append] using i2, i3⟩
    | load f => exact ⟨fun k => by rw [param_other W k ops _ rfl]; exact i1 k, by simpa [step, dataAfter, List.filterMap_append] using i2, i3⟩
    | data d => exact ⟨fun k => by rw [param_other W k ops _ rfl]; exact i1 k, by simp [step, dataAfter, List.filterMap_append], i3⟩

theorem run_model_keep (W : Vals P) (L : Lib P I T Mo) (s : State P I T Mo) (ops : List (Op P I T)) (h : ∀ o ∈ ops, (∃ kw, o = .params kw) ∨ ∃ d, o = .data d) : (run W L s ops).model = s.model := by
  induction ops generalizing s with
  | nil => rfl
  | cons o ops ih =>
    rw [show run W L s (o :: ops) = run W L (step W L s o) ops from rfl, ih _ (fun o' ho' => h o' (by simp [ho']))]
    rcases h o (by simp) with ⟨kw, rfl⟩ | ⟨d, rfl⟩ <;> rfl

theorem activate_spec {C R Q : Type} (m : Predictor I C R Q) (values : Flag) (b : Buf I C R Q) (xs : List I) :
    (activateOnDataset m values b xs).1 = xs.map (fun x => forwardPass m x values) ∧
      (activateOnDataset m values b xs).2 = match xs.getLast? with
        | none => b
        | some x => ⟨some x, some (forwardPass m x values)⟩ := by
  induction xs generalizing b with
  | nil => exact ⟨rfl, rfl⟩
  | cons x xs ih =>
    obtain ⟨h1, h2⟩ := ih ⟨some x, some (forwardPass m x values)⟩
    refine ⟨by simp [activateOnDataset, h1], ?_⟩
    simp only [activateOnDataset, h2]
    cases xs with
    | nil => simp
    | cons y ys =>
      rw [List.getLast?_cons_cons]
      cases h : (y :: ys).getLast? with
      | none => simp at h
      | some z => rfl

end Verif.Svm

namespace Verif.Props
open Verif.Py Verif.Svm Verif.Svm.Spec

variable {P I T Mo : Type}

/-- C184. Training: after any history of calls, `train` gives the unit the model LIBSVM makes of the targets and inputs the data set has now, with each parameter at the value that the last call mentioning it gave (the arguments of this call
included); `log2C`, `log2g` and the name of the log are never passed on. Setting parameters or changing the data set later does not change the model. -/
theorem C184_train (W : Vals P) (L : Lib P I T Mo) (data : List (I × T)) (unit : Mo) (file : Option String) (ops later : List (Op P I T)) (kw : KW P) (hp : Proper (ops ++ [.train kw]))
    (hl : ∀ o ∈ later, (∃ kw, o = .params kw) ∨ ∃ d, o = .data d) :
    ∃ params, (run W L (init W L data unit file) (ops ++ [.train kw] ++ later)).model = L.fit ((dataAfter data ops).map Prod.snd) ((dataAfter data ops).map Prod.fst) params ∧
      ∀ key, dget params key = paramAfter W key (ops ++ [.train kw]) := by
  have h1 := run_params W L data unit file (ops ++ [.train kw]) hp
  have h2 := run_params W L data unit file ops (fun o ho => hp o (by simp [ho]))
  refine ⟨(run W L (init W L data unit file) (ops ++ [.train kw])).params, ?_, h1.1⟩
  have e : run W L (init W L data unit file) (ops ++ [.train kw] ++ later) = run W L (run W L (init W L data unit file) (ops ++ [.train kw])) later := by simp [run]
  rw [e, run_model_keep W L _ later hl, ← h2.2.1]
  simp [run, step]

/-- C184. Loading a model, at construction or later, replaces the model by that of the file. -/
theorem C184_load (W : Vals P) (L : Lib P I T Mo) (data : List (I × T)) (unit : Mo) (file : Option String) (ops later : List (Op P I T)) (f : String)
    (hl : ∀ o ∈ later, (∃ kw, o = .params kw) ∨ ∃ d, o = .data d) :
    (run W L (init W L data unit file) (ops ++ [.load f] ++ later)).model = L.readFile f ∧ (run W L (init W L data unit (some f)) later).model = L.readFile f ∧
      (run W L (init W L data unit none) later).model = unit := by
  refine ⟨?_, by rw [run_model_keep W L _ later hl]; rfl, by rw [run_model_keep W L _ later hl]; rfl⟩
  have e : run W L (init W L data unit file) (ops ++ [.load f] ++ later) = run W L (run W L (init W L data unit file) (ops ++ [.load f])) later := by simp [run]
  rw [e, run_model_keep W L _ later hl]
  simp [run, step]

/-- C184. The meaning of single parameters: an explicit `C` is taken before `log2C`; the other way round, `log2C` in a later call replaces a `C` of an earlier one. -/
theorem C184_exponents (W : Vals P) (ops : List (Op P I T)) (c e : P) :
    paramAfter W "C" (ops ++ [.params [("log2C", e), ("C", c)]]) = some c ∧ paramAfter W "C" (ops ++ [.params [("C", c)], .train [("log2C", e)]]) = some (W.pow2 e) ∧
      paramAfter W "gamma" (ops ++ [.train [("log2g", e)]]) = some (W.pow2 e) ∧ paramAfter W "nr_weight" (ops ++ [.train [("weight", e)]]) = some (W.len e) ∧
      paramAfter W "weight" (ops ++ [.train [("weight", e)]]) = some e := by
  have h2 : paramAfter W "C" (ops ++ [.params [("C", c)], .train [("log2C", e)]]) = some (W.pow2 e) := by
    rw [show ops ++ [Op.params [("C", c)], .train [("log2C", e)]] = (ops ++ [.params [("C", c)]]) ++ [.train [("log2C", e)]] by simp, param_call W "C" _ _ _ rfl]
    simp [given, dget]
  refine ⟨?_, h2, ?_, ?_, ?_⟩
  · rw [param_call W "C" _ _ _ rfl]; simp [given, dget]
  · rw [param_call W "gamma" _ _ _ rfl]; simp [given, dget]
  · rw [param_call W "nr_weight" _ _ _ rfl]; simp [given, dget]
  · rw [param_call W "weight" _ _ _ rfl]; simp [given, dget]

/-- C184. In the searches, as long as the data set has as many samples as at construction, the score of a candidate is the fraction of samples for which the cross-validation gave the target the sample had at construction: it is 1 exactly if
all agree. -/
theorem C184_score_partial [DecidableEq T] (cv targets : List T) (h : cv.length = targets.length) (h0 : targets ≠ []) :
    score cv targets = (((cv.zip targets).filter fun p => p.1 = p.2).length : ℚ) / targets.length ∧ (score cv targets = 1 ↔ cv = targets) := by
  have hc : (List.zipWith (fun x y => decide (x = y)) cv targets).count true = ((cv.zip targets).filter fun p => p.1 = p.2).length := by
    clear h0 h
    induction cv generalizing targets with
    | nil => simp
    | cons a cv ih =>
      cases targets with
      | nil => simp
      | cons b targets =>
        by_cases hab : a = b
        · simp [hab, ih]
        · simp [hab, ih]
  have e : score cv targets = (((cv.zip targets).filter fun p => p.1 = p.2).length : ℚ) / targets.length := by
    have hcmp : Svm.compare cv targets = some (List.zipWith (fun x y => decide (x = y)) cv targets) := by rw [Svm.compare.eq_def, if_pos h]
    rw [score, hcmp, ← hc]
  refine ⟨e, ?_⟩
  have hpos : (0 : ℚ) < targets.length := by
    have : 0 < targets.length := List.length_pos_iff.2 h0
    exact_mod_cast this
  rw [e, div_eq_one_iff_eq (ne_of_gt hpos)]
  constructor
  · intro hq
    have hq : ((cv.zip targets).filter fun p => p.1 = p.2).length = targets.length := by exact_mod_cast hq
    have hz : (cv.zip targets).length = targets.length := by simp [h]
    have hall : ∀ p ∈ cv.zip targets, p.1 = p.2 := by
      have := (List.length_filter_eq_length_iff (p := fun p : T × T => decide (p.1 = p.2)) (l := cv.zip targets)).1 (by rw [hz]; exact hq)
      intro p hp
      simpa using this p hp
    apply List.ext_getElem h
    intro i h1 h2
    have := hall (cv[i], targets[i]) (by
      rw [List.mem_iff_getElem]
      exact ⟨i, by simp [h1, h2], by simp⟩)
    exact this
  · rintro rfl
    have : (cv.zip cv).filter (fun p => p.1 = p.2) = cv.zip cv := by
      rw [List.filter_eq_self]
      intro p hp
      rw [List.mem_iff_getElem] at hp
      obtain ⟨i, hi, rfl⟩ := hp
      simp
    rw [this]
    simp

/-- **C184 fails for searches after the data set has grown**: the targets are taken when the trainer is constructed. If the data set has changed its size since (and neither size is 1) every candidate has score 0, even one that is right about every
sample. (In versions of numpy since 1.25 the comparison raises ValueError instead.) -/
theorem C184_negation_grown [DecidableEq T] (W : Vals P) (L : Lib P I T Mo) (data : List (I × T)) (unit : Mo) (file : Option String) (ops : List (Op P I T)) (hp : Proper ops)
    (h : (dataAfter data ops).length ≠ data.length) (h1 : data.length ≠ 1) (h2 : (dataAfter data ops).length ≠ 1) :
    let s := run W L (init W L data unit file) ops
    score (s.data.map Prod.snd) s.svmtarget = 0 ∧ ∀ cv : List T, cv.length = s.data.length → score cv s.svmtarget = 0 := by
  intro s
  obtain ⟨-, e2, e3⟩ := run_params W L data unit file ops hp
  have key : ∀ cv : List T, cv.length = s.data.length → score cv s.svmtarget = 0 := by
    intro cv hcv
    have hl : cv.length = (dataAfter data ops).length := hcv.trans (by rw [e2])
    have hn : Svm.compare cv s.svmtarget = none := by
      have ht : s.svmtarget.length = data.length := by rw [e3, List.length_map]
      unfold Svm.compare
      rw [if_neg (by omega)]
      split
      · simp at hl; omega
      · simp_all
      · rfl
    rw [score, hn]
  exact ⟨key _ (by simp), key⟩

/-- **C184 fails for searches after labels have changed**: as many samples, but other labels: a candidate that is right about all samples can have score 0, and one that is wrong about all of them score 1. -/
theorem C184_negation_relabelled : ∃ (old new : List (Nat × Nat)), old.map Prod.fst = new.map Prod.fst ∧
    (let s := run ⟨id, id, 0⟩ (⟨fun _ _ _ => (), fun _ => ()⟩ : Lib Nat Nat Nat Unit) (init ⟨id, id, 0⟩ ⟨fun _ _ _ => (), fun _ => ()⟩ old () none) [.data new];
      score (s.data.map Prod.snd) s.svmtarget = 0 ∧ score [0, 1] s.svmtarget = 1 ∧ s.data.map Prod.snd = [1, 0]) := by
  refine ⟨[(5, 0), (6, 1)], [(5, 1), (6, 0)], rfl, ?_, ?_, rfl⟩
  · simp [run, step, init, score, Svm.compare]
  · simp [run, step, init, score, Svm.compare]

/-- C184. The unit: `False`, 0 and 'class' ask for classes, `True`, 1 and 'raw' for decision values, 'prob' for probabilities. -/
theorem C184_forward {C R Q : Type} (m : Predictor I C R Q) (x : I) :
    (∀ f ∈ [Flag.bool false, .num 0, .str "class"], forwardPass m x f = .cls (m.predict x)) ∧ (∀ f ∈ [Flag.bool true, .num 1, .str "raw"], forwardPass m x f = .raw (m.values x)) ∧
      forwardPass m x (.str "prob") = .prob (m.probability x) := by
  refine ⟨fun f hf => ?_, fun f hf => ?_, by simp [forwardPass, Flag.isFalse, Flag.isTrue]⟩
  · simp only [List.mem_cons, List.not_mem_nil, or_false] at hf
    rcases hf with rfl | rfl | rfl <;> simp [forwardPass, Flag.isFalse]
  · simp only [List.mem_cons, List.not_mem_nil, or_false] at hf
    rcases hf with rfl | rfl | rfl <;> simp [forwardPass, Flag.isFalse, Flag.isTrue]

/-- C184. `activateOnDataset` returns one output for each input, in the order of the inputs, each the output for this input alone; the buffers keep the last input and its output, and are left alone if there is none. -/
theorem C184_dataset {C R Q : Type} (m : Predictor I C R Q) (values : Flag) (b : Buf I C R Q) (xs : List I) :
    (activateOnDataset m values b xs).1 = xs.map (fun x => forwardPass m x values) ∧
      (∀ x, xs.getLast? = some x → (activateOnDataset m values b xs).2 = ⟨some x, some (forwardPass m x values)⟩) ∧ (xs = [] → (activateOnDataset m values b xs).2 = b) := by
  obtain ⟨h1, h2⟩ := activate_spec m values b xs
  refine ⟨h1, fun x hx => by rw [h2, hx], fun hx => by subst hx; rfl⟩

/-- **C184 fails for other options**: every other value (`None`, 'classes', 2) is accepted without an exception and gives probabilities. -/
theorem C184_negation_option {C R Q : Type} (m : Predictor I C R Q) (x : I) (f : Flag) (h : f ∉ [Flag.bool false, .num 0, .str "class", Flag.bool true, .num 1, .str "raw"]) :
    forwardPass m x f = .prob (m.probability x) := by
  simp only [List.mem_cons, List.not_mem_nil, or_false, not_or] at h
  cases f with
  | bool b => cases b <;> simp_all
  | num q => simp_all [forwardPass, Flag.isFalse, Flag.isTrue]
  | str s => simp_all [forwardPass, Flag.isFalse, Flag.isTrue]
  | none => simp [forwardPass, Flag.isFalse, Flag.isTrue]

/-- The hypotheses are met: a history with proper arguments, a changed data set, and a parameter given in two calls. -/
example : Proper ([.params [("log2C", 3), ("gamma", 1)], .data [(0, 0), (1, 1), (2, 0)], .train [("log2C", 5)]] : List (Op Nat Nat Nat)) ∧
    paramAfter ⟨fun n => 2 ^ n, id, 9⟩ "C" ([.params [("log2C", 3), ("gamma", 1)], .data [(0, 0), (1, 1), (2, 0)], .train [("log2C", 5)]] : List (Op Nat Nat Nat)) = some 32 ∧
    (dataAfter [(0, 0), (1, 1)] ([.params [("log2C", 3), ("gamma", 1)], .data [(0, 0), (1, 1), (2, 0)], .train [("log2C", 5)]] : List (Op Nat Nat Nat))).length = 3 ∧
    Flag.none ∉ [Flag.bool false, .num 0, .str "class", Flag.bool true, .num 1, .str "raw"] := by
  refine ⟨?_, by decide, by decide, by decide⟩
  intro o ho kw hkw
  simp only [List.mem_cons, List.not_mem_nil, or_false] at ho
  rcases ho with rfl | rfl | rfl
  · cases hkw; simp [Keys]
  · cases hkw
  · cases hkw; simp [Keys]

end Verif.Props
