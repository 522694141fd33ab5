import Verif.Model.RlGlue
import Verif.Props.Agent
import Mathlib.Data.List.Perm.Basic
import Mathlib.Data.List.Nodup
/-
C154: agents in RL-Glue sessions and their benchmarks.
-/
namespace Verif.RlGlue
open Verif.DataSet (Err)
open Verif.Agent Verif.Agent.Spec
open Verif.Sequential (SDS)
open Verif.Sequential.Spec (Shows)

/-! ### specification -/
namespace Spec
variable {K : Type}

/-- the messages after the first action of an episode -/
def rest : K → List (Rec K) → List (Message K)
  | r, [] => [.stop r]
  | r, x :: xs => .step r x.obs x.action :: rest x.reward xs

/-- the messages of an episode: the reward of a record arrives with the next observation, the last one with the end -/
def episode : List (Rec K) → List (Message K)
  | [] => []
  | x :: xs => .start x.obs x.action :: rest x.reward xs

/-- a session of RL-Glue -/
def session (eps : List (List (Rec K))) : List (Message K) := .init :: eps.flatMap episode ++ [.cleanup]

/-- the episodes between the calls of the learner, when it is called each time the number of episodes plus one is a multiple of `n` -/
def groups (n : Nat) : Nat → List (List (Rec K)) → List (List (Rec K)) → List (List (List (Rec K)))
  | _, _, [] => []
  | count, pending, x :: eps =>
    if (count + 1) % n = 0 then (pending ++ [x]) :: groups n (count + 1) [] eps else groups n (count + 1) (pending ++ [x]) eps

/-- the history with these episodes, in which a further one has been opened -/
def withOpen (eps : List (List (Rec K))) : List (List (List (List K))) := eps.map (fun xs => xs.map Rec.sample) ++ [[]]

end Spec
open Spec

section
variable {K : Type} [Zero K]

theorem callsE_cons {indim outdim : Nat} {g : LAgent K} {s s' : Phase K × Sequential.Spec.Seqs K} {c : Call K} (h : Good indim outdim g s) (hc : okCall indim outdim c)
    (hl : g.logging = true) (hs : step true s c = (s', none)) (cs : List (Call K)) : ∃ g', callsE g (c :: cs) = callsE g' cs ∧ Good indim outdim g' s' ∧ g'.logging = true := by
  obtain ⟨g', h1, h2, h3⟩ := good_call_eq h hc hl hs
  exact ⟨g', by rw [callsE, h1], h2, h3⟩

/-- the messages after an action -/
theorem rest_spec (indim outdim : Nat) (S : List (List (List (List K)))) : ∀ (xs : List (Rec K)) (r : K) (o a : List K) (cur : List (List (List K))) (x : Adapter K),
    (∀ y ∈ xs, y.obs.length = indim ∧ y.action.length = outdim) → o.length = indim → a.length = outdim → 0 < x.learnCycle → x.agent.logging = true →
    Good indim outdim x.agent (.acted o a, S ++ [cur]) → ∀ ms, ∃ x' : Adapter K, x.session (rest r xs ++ ms) = x'.session ms ∧ x'.learnCycle = x.learnCycle ∧
      x'.episodeCount = x.episodeCount + 1 ∧ x'.agent.logging = true ∧
      if (x.episodeCount + 1) % x.learnCycle = 0 then
        (∃ h, Shows h (S ++ [cur ++ (⟨o, a, r⟩ :: xs : List (Rec K)).map Rec.sample] ++ [[]]) ∧ x'.learned = x.learned ++ [h]) ∧ Good indim outdim x'.agent (.idle, [[]])
      else x'.learned = x.learned ∧ Good indim outdim x'.agent (.idle, S ++ [cur ++ (⟨o, a, r⟩ :: xs : List (Rec K)).map Rec.sample] ++ [[]]) := by
  intro xs
  induction xs with
  | nil =>
    intro r o a cur x _ ho ha hn hl hg ms
    have s1 : step true (.acted o a, S ++ [cur]) (.reward r) = ((.idle, S ++ [cur ++ [Rec.sample ⟨o, a, r⟩]]), none) := by
      simp only [step, if_true, addLast_concat]
    have s2 : step true (.idle, S ++ [cur ++ [Rec.sample ⟨o, a, r⟩]]) .newEpisode = ((.idle, S ++ [cur ++ [Rec.sample ⟨o, a, r⟩]] ++ [[]]), none) := by
      simp only [step, if_true, Sequential.Spec.step]
      rw [if_neg (by simp), if_neg (by simp)]
    obtain ⟨g1, e1, h1, l1⟩ := callsE_cons hg (c := .reward r) trivial hl s1 [.newEpisode]
    obtain ⟨g2, e2, h2, l2⟩ := callsE_cons h1 (c := .newEpisode) trivial l1 s2 []
    have hr : (rest r ([] : List (Rec K)) ++ ms) = .stop r :: ms := rfl
    rw [hr, Adapter.session, Adapter.receive, e1, e2, callsE]
    have hn0 : ¬ x.learnCycle = 0 := by omega
    simp only [if_neg hn0]
    by_cases hm : (x.episodeCount + 1) % x.learnCycle = 0
    · simp only [if_pos hm]
      refine ⟨_, rfl, rfl, rfl, l2, ?_⟩
      refine ⟨⟨g2.history, h2.2.2.shows (by decide), rfl⟩, ?_⟩
      obtain ⟨g3, e3, h3, l3⟩ := good_call_eq h2 (c := .reset) trivial l2 (s' := (.idle, [[]])) rfl
      have : g3 = g2.reset := (congrArg Prod.fst e3).symm
      rw [this] at h3
      exact h3
    · simp only [if_neg hm]
      refine ⟨_, rfl, rfl, rfl, l2, ?_⟩
      exact ⟨rfl, h2⟩
  | cons y xs ih =>
    intro r o a cur x hw ho ha hn hl hg ms
    have s1 : step true (.acted o a, S ++ [cur]) (.reward r) = ((.idle, S ++ [cur ++ [Rec.sample ⟨o, a, r⟩]]), none) := by
      simp only [step, if_true, addLast_concat]
    obtain ⟨g1, e1, h1, l1⟩ := callsE_cons hg (c := .reward r) trivial hl s1 [.observe y.obs, .act y.action]
    obtain ⟨g2, e2, h2, l2⟩ := callsE_cons h1 (c := .observe y.obs) (hw y List.mem_cons_self).1 l1 rfl [.act y.action]
    obtain ⟨g3, e3, h3, l3⟩ := callsE_cons h2 (c := .act y.action) (hw y List.mem_cons_self).2 l2 rfl []
    obtain ⟨x', f1, f2, f3, f4, f5⟩ := ih y.reward y.obs y.action _ { x with agent := g3 } (fun z hz => hw z (List.mem_cons_of_mem _ hz)) (hw y List.mem_cons_self).1
      (hw y List.mem_cons_self).2 hn l3 h3 ms
    refine ⟨x', ?_, f2, f3, f4, ?_⟩
    · rw [← f1, rest, List.cons_append, Adapter.session, Adapter.receive, e1, e2, e3, callsE]
    · simpa only [List.map_cons, List.append_assoc, List.cons_append, List.nil_append] using f5

/-- one episode -/
theorem episode_spec (indim outdim : Nat) (pending : List (List (Rec K))) (xs : List (Rec K)) (hne : xs ≠ []) (x : Adapter K)
    (hw : ∀ y ∈ xs, y.obs.length = indim ∧ y.action.length = outdim) (hn : 0 < x.learnCycle) (hl : x.agent.logging = true)
    (hg : Good indim outdim x.agent (.idle, withOpen pending)) (ms : List (Message K)) : ∃ x' : Adapter K, x.session (episode xs ++ ms) = x'.session ms ∧ x'.learnCycle = x.learnCycle ∧
      x'.episodeCount = x.episodeCount + 1 ∧ x'.agent.logging = true ∧
      if (x.episodeCount + 1) % x.learnCycle = 0 then (∃ h, Shows h (withOpen (pending ++ [xs])) ∧ x'.learned = x.learned ++ [h]) ∧ Good indim outdim x'.agent (.idle, withOpen [])
      else x'.learned = x.learned ∧ Good indim outdim x'.agent (.idle, withOpen (pending ++ [xs])) := by
  obtain ⟨y, ys, rfl⟩ := List.exists_cons_of_ne_nil hne
  obtain ⟨g2, e2, h2, l2⟩ := callsE_cons hg (c := .observe y.obs) (hw y List.mem_cons_self).1 hl rfl [.act y.action]
  obtain ⟨g3, e3, h3, l3⟩ := callsE_cons h2 (c := .act y.action) (hw y List.mem_cons_self).2 l2 rfl []
  obtain ⟨x', f1, f2, f3, f4, f5⟩ := rest_spec indim outdim (pending.map fun xs : List (Rec K) => xs.map Rec.sample) ys y.reward y.obs y.action [] { x with agent := g3 }
    (fun z hz => hw z (List.mem_cons_of_mem _ hz)) (hw y List.mem_cons_self).1 (hw y List.mem_cons_self).2 hn l3 h3 ms
  refine ⟨x', ?_, f2, f3, f4, ?_⟩
  · rw [← f1, episode, List.cons_append, Adapter.session, Adapter.receive, e2, e3, callsE]
  · simpa [withOpen] using f5

theorem episodes_spec (indim outdim : Nat) : ∀ (eps pending : List (List (Rec K))) (x : Adapter K), (∀ xs ∈ eps, xs ≠ []) →
    (∀ xs ∈ eps, ∀ y ∈ xs, y.obs.length = indim ∧ y.action.length = outdim) → 0 < x.learnCycle → x.agent.logging = true →
    Good indim outdim x.agent (.idle, withOpen pending) → ∃ (x' : Adapter K) (hs : List (SDS K)), x.session (eps.flatMap episode ++ [.cleanup]) = .ok x' ∧
      x'.learned = x.learned ++ hs ∧ List.Forall₂ (fun h g => Shows h (withOpen g)) hs (groups x.learnCycle x.episodeCount pending eps) := by
  intro eps
  induction eps with
  | nil =>
    intro pending x _ _ _ _ _
    exact ⟨x, [], rfl, by simp, .nil⟩
  | cons xs eps ih =>
    intro pending x hne hw hn hl hg
    obtain ⟨x', f1, f2, f3, f4, f5⟩ := episode_spec indim outdim pending xs (hne xs List.mem_cons_self) x (hw xs List.mem_cons_self) hn hl hg (eps.flatMap episode ++ [.cleanup])
    rw [List.flatMap_cons, List.append_assoc, f1, groups]
    by_cases hm : (x.episodeCount + 1) % x.learnCycle = 0
    · rw [if_pos hm] at f5 ⊢
      obtain ⟨⟨h, hh, hle⟩, hg'⟩ := f5
      obtain ⟨x'', hs, i1, i2, i3⟩ := ih [] x' (fun z hz => hne z (List.mem_cons_of_mem _ hz)) (fun z hz => hw z (List.mem_cons_of_mem _ hz)) (by rw [f2]; exact hn) f4 hg'
      refine ⟨x'', h :: hs, i1, by rw [i2, hle]; simp, ?_⟩
      rw [f2, f3] at i3
      exact .cons hh i3
    · rw [if_neg hm] at f5 ⊢
      obtain ⟨hle, hg'⟩ := f5
      obtain ⟨x'', hs, i1, i2, i3⟩ := ih (pending ++ [xs]) x' (fun z hz => hne z (List.mem_cons_of_mem _ hz)) (fun z hz => hw z (List.mem_cons_of_mem _ hz)) (by rw [f2]; exact hn) f4 hg'
      rw [f2, f3] at i3
      exact ⟨x'', hs, i1, by rw [i2, hle], i3⟩

/-- a group that is completed -/
theorem groups_fill (n : Nat) (hn : 0 < n) : ∀ (first rest : List (List (Rec K))) (count : Nat) (pending : List (List (Rec K))), first ≠ [] → first.length + count % n = n →
    groups n count pending (first ++ rest) = (pending ++ first) :: groups n (count + first.length) [] rest
  | [], _, _, _, h, _ => absurd rfl h
  | [x], rest, count, pending, _, h => by
    have : (count + 1) % n = 0 := by
      rw [List.length_singleton] at h
      rcases Nat.lt_or_ge 1 n with h' | h'
      · rw [Nat.add_mod, Nat.mod_eq_of_lt h', show count % n + 1 = n by omega, Nat.mod_self]
      · have : n = 1 := by omega
        subst this
        exact Nat.mod_one _
    rw [List.singleton_append, groups, if_pos this, List.length_singleton]
  | x :: y :: first, rest, count, pending, _, h => by
    have hlt : count % n + 1 < n := by simp only [List.length_cons] at h; omega
    have e : (count + 1) % n = count % n + 1 := by
      rw [Nat.add_mod, Nat.mod_eq_of_lt (by omega : 1 < n), Nat.mod_eq_of_lt hlt]
    rw [List.cons_append, groups, if_neg (by rw [e]; exact Nat.succ_ne_zero _), groups_fill n hn (y :: first) rest (count + 1) (pending ++ [x]) (by simp) (by
      rw [e]; simp only [List.length_cons] at h ⊢; omega)]
    simp only [List.append_assoc, List.singleton_append, List.length_cons]
    rw [show count + 1 + (first.length + 1) = count + (first.length + 1 + 1) by omega]

theorem groups_short (n : Nat) : ∀ (eps : List (List (Rec K))) (count : Nat) (pending : List (List (Rec K))), eps.length + count % n < n → groups n count pending eps = []
  | [], _, _, _ => rfl
  | x :: eps, count, pending, h => by
    have hlt : count % n + 1 < n := by simp only [List.length_cons] at h; omega
    have e : (count + 1) % n = count % n + 1 := by
      rw [Nat.add_mod, Nat.mod_eq_of_lt (by omega : 1 < n), Nat.mod_eq_of_lt hlt]
    rw [groups, if_neg (by rw [e]; exact Nat.succ_ne_zero _)]
    exact groups_short n eps (count + 1) _ (by rw [e]; simp only [List.length_cons] at h; omega)

theorem groups_blocks (n : Nat) (hn : 0 < n) (rest : List (List (Rec K))) (hr : rest.length < n) : ∀ (blocks : List (List (List (Rec K)))) (count : Nat), (∀ b ∈ blocks, b.length = n) → count % n = 0 →
    groups n count [] (blocks.flatten ++ rest) = blocks
  | [], count, _, hc => by
    rw [List.flatten_nil, List.nil_append]
    exact groups_short n rest count [] (by omega)
  | b :: blocks, count, hb, hc => by
    have hl := hb b List.mem_cons_self
    rw [List.flatten_cons, List.append_assoc, groups_fill n hn b _ count [] (by intro h; rw [h] at hl; simp at hl; omega) (by omega), List.nil_append, hl,
      groups_blocks n hn rest hr blocks (count + n) (fun b hb' => hb b (List.mem_cons_of_mem _ hb')) (by rw [Nat.add_mod_right]; exact hc)]
end

/-! ### the benchmark of an agent -/

section
variable {K : Type} [Field K]

theorem bench_rest (rows : List (K × Nat)) : ∀ (xs : List (Rec K)) (r : K) (rs : List K) (ms : List (Message K)),
    Bench.session ⟨rows, rs⟩ (rest r xs ++ ms) = Bench.session ⟨rows ++ [((rs ++ r :: xs.map Rec.reward).sum / ((rs.length + 1 + xs.length : Nat) : K), rs.length + 1 + xs.length)], []⟩ ms
  | [], r, rs, ms => by
    simp [rest, Bench.session, Bench.receive, Bench.giveReward, Bench.newEpisode]
  | x :: xs, r, rs, ms => by
    rw [rest, List.cons_append, Bench.session, Bench.receive, Bench.giveReward]
    simp only
    rw [bench_rest rows xs x.reward (rs ++ [r]) ms]
    simp only [List.length_append, List.length_singleton, List.append_assoc, List.singleton_append, List.map_cons, List.length_cons (as := xs)]
    rw [show rs.length + 1 + 1 + xs.length = rs.length + 1 + (xs.length + 1) by omega]

theorem bench_episodes : ∀ (eps : List (List (Rec K))) (rows : List (K × Nat)), (∀ xs ∈ eps, xs ≠ []) → ∀ ms,
    Bench.session ⟨rows, []⟩ (eps.flatMap episode ++ ms) = Bench.session ⟨rows ++ eps.map (fun xs => ((xs.map Rec.reward).sum / (xs.length : K), xs.length)), []⟩ ms
  | [], rows, _, ms => by simp
  | xs :: eps, rows, h, ms => by
    obtain ⟨y, ys, rfl⟩ := List.exists_cons_of_ne_nil (h xs List.mem_cons_self)
    rw [List.flatMap_cons, List.append_assoc, episode, List.cons_append, Bench.session]
    simp only [Bench.receive]
    rw [bench_rest, bench_episodes eps _ (fun z hz => h z (List.mem_cons_of_mem _ hz))]
    simp [Nat.add_comm]
end

/-! ### benchmarks of several agents -/

theorem dash_not_digit (j : Nat) : '-' ∉ (Nat.repr j).toList := by
  rw [Nat.toList_repr]
  intro h
  have := Nat.isDigit_of_mem_toDigits (by decide) (by decide) h
  exact absurd this (by decide)

theorem index_fileName (name : List Char) (j : Nat) : index (fileName name j) = .ok j := by
  have h : ((fileName name j).reverse.takeWhile (fun c => c != '-')).reverse = (Nat.repr j).toList := by
    unfold fileName
    rw [List.reverse_append, List.reverse_cons, List.append_assoc, List.takeWhile_append_of_pos]
    · simp
    · intro c hc
      rw [List.mem_reverse] at hc
      have : c ≠ '-' := fun e => dash_not_digit j (e ▸ hc)
      simpa using this
  unfold index
  rw [h, String.ofList_toList, Nat.toNat?_repr]

theorem fileName_inj {n n' : List Char} {j j' : Nat} (h : fileName n j = fileName n' j') : n = n' ∧ j = j' := by
  have hj : j = j' := by
    have := (index_fileName n j).symm.trans (h ▸ index_fileName n' j')
    simpa using this
  subst hj
  exact ⟨List.append_cancel_right h, rfl⟩

/-- no name continues another one with a dash -/
def NoClash (names : List (List Char)) : Prop := ∀ n ∈ names, ∀ m ∈ names, ¬ (n ++ ['-']) <+: m

/-- only benchmark files of these agents -/
def Ours (names : List (List Char)) (files : List (List Char)) : Prop := ∀ f ∈ files, ∃ n ∈ names, ∃ j, f = fileName n j

/-- a file that begins with the name of an agent and a dash is one of its files -/
theorem prefix_file {names : List (List Char)} (hc : NoClash names) {n m : List Char} (hn : n ∈ names) (hm : m ∈ names) {j : Nat} : (n ++ ['-']).isPrefixOf (fileName m j) = true ↔ m = n := by
  rw [List.isPrefixOf_iff_prefix]
  constructor
  · intro h
    have hm' : (m ++ ['-']) <+: fileName m j := ⟨(Nat.repr j).toList, by simp [fileName]⟩
    rcases List.prefix_or_prefix_of_prefix h hm' with h' | h'
    · by_contra hne
      obtain ⟨t, ht⟩ := h'
      rcases List.eq_nil_or_concat t with rfl | ⟨t', c, rfl⟩
      · rw [List.append_nil] at ht
        exact hne (List.append_cancel_right ht).symm
      · refine hc n hn m hm ⟨t', ?_⟩
        rw [List.concat_eq_append, ← List.append_assoc] at ht
        exact (List.append_inj' ht rfl).1
    · by_contra hne
      obtain ⟨t, ht⟩ := h'
      rcases List.eq_nil_or_concat t with rfl | ⟨t', c, rfl⟩
      · rw [List.append_nil] at ht
        exact hne (List.append_cancel_right ht)
      · refine hc m hm n hn ⟨t', ?_⟩
        rw [List.concat_eq_append, ← List.append_assoc] at ht
        exact (List.append_inj' ht rfl).1
  · rintro rfl
    exact ⟨(Nat.repr j).toList, by simp [fileName]⟩

theorem mapM_index {names : List (List Char)} : ∀ files, Ours names files → ∃ js, files.mapM index = .ok js ∧ ∀ j, j ∈ js ↔ ∃ f ∈ files, index f = .ok j
  | [], _ => ⟨[], rfl, by simp⟩
  | f :: files, h => by
    obtain ⟨n, _, j, rfl⟩ := h f List.mem_cons_self
    obtain ⟨js, h1, h2⟩ := mapM_index files (fun f hf => h f (List.mem_cons_of_mem _ hf))
    refine ⟨j :: js, ?_, ?_⟩
    · rw [List.mapM_cons, index_fileName, h1]
      rfl
    · intro i
      simp only [List.mem_cons, exists_eq_or_imp, index_fileName, Except.ok.injEq, h2]
      rw [eq_comm]

theorem doneLoops_spec {names files : List (List Char)} (hc : NoClash names) (hf : Ours names files) {n : List Char} (hn : n ∈ names) :
    ∃ js, doneLoops n files = .ok js ∧ ∀ j, j ∈ js ↔ fileName n j ∈ files := by
  obtain ⟨js, h1, h2⟩ := mapM_index (names := names) (files.filter fun f => (n ++ ['-']).isPrefixOf f) (fun f h => hf f (List.mem_filter.1 h).1)
  refine ⟨js, h1, fun j => ?_⟩
  rw [h2]
  constructor
  · rintro ⟨f, hfm, hi⟩
    obtain ⟨hfm', hp⟩ := List.mem_filter.1 hfm
    clear hfm
    rename' hfm' => hfm
    obtain ⟨m, hm, i, rfl⟩ := hf f hfm
    rw [prefix_file hc hn hm] at hp
    subst hp
    rw [index_fileName] at hi
    have : i = j := by simpa using hi
    rwa [this] at hfm
  · intro h
    exact ⟨_, List.mem_filter.2 ⟨h, (prefix_file hc hn hn).2 rfl⟩, index_fileName n j⟩

theorem runLoops_spec (name : List Char) : ∀ (js : List Nat) (files : List (List Char)) (budget : Nat), js.Nodup → (∀ j ∈ js, fileName name j ∉ files) →
    runLoops name js files budget = ((js.take budget).map (fun j => (name, j)), files ++ (js.take budget).map (fileName name), budget - js.length, decide (budget < js.length))
  | [], files, budget, _, _ => by simp [runLoops]
  | j :: js, files, 0, _, _ => by simp [runLoops]
  | j :: js, files, budget + 1, hd, h => by
    rw [List.nodup_cons] at hd
    rw [runLoops, if_neg (by simpa using h j List.mem_cons_self), runLoops_spec name js _ budget hd.2 (by
      intro i hi hm
      rcases List.mem_append.1 hm with hm | hm
      · exact h i (List.mem_cons_of_mem _ hi) hm
      · rw [List.mem_singleton] at hm
        exact hd.1 ((fileName_inj hm).2 ▸ hi))]
    simp

/-- the tests that are missing, agent by agent -/
def missing (loops : Nat) (names files : List (List Char)) : List (List Char × Nat) :=
  names.flatMap fun n => ((List.range loops).filter fun j => decide (fileName n j ∉ files)).map fun j => (n, j)

theorem missing_congr (loops : Nat) (names files extra : List (List Char)) (h : ∀ n ∈ names, ∀ j, fileName n j ∉ extra) : missing loops names (files ++ extra) = missing loops names files := by
  unfold missing
  refine List.flatMap_congr fun n hn => ?_
  congr 1
  refine List.filter_congr fun j _ => ?_
  simp [h n hn j]

theorem run_spec (loops : Nat) (all : List (List Char)) (hc : NoClash all) : ∀ (names files : List (List Char)) (budget : Nat), (∀ n ∈ names, n ∈ all) → names.Nodup → Ours all files →
    run loops false names files budget = .ok ((missing loops names files).take budget, files ++ ((missing loops names files).take budget).map fun p => fileName p.1 p.2)
  | [], files, budget, _, _, _ => by simp [run, missing]
  | n :: names, files, budget, hs, hd, hf => by
    rw [List.nodup_cons] at hd
    have hn := hs n List.mem_cons_self
    obtain ⟨js, h1, h2⟩ := doneLoops_spec hc hf hn
    have e : ((List.range loops).filter fun j => !js.contains j) = (List.range loops).filter fun j => decide (fileName n j ∉ files) := by
      refine List.filter_congr fun j _ => ?_
      rw [Bool.eq_iff_iff]
      simp [h2]
    set todo := (List.range loops).filter fun j => decide (fileName n j ∉ files) with htodo
    have hnd : todo.Nodup := List.nodup_range.filter _
    have hmi : ∀ j ∈ todo, fileName n j ∉ files := fun j hj => by simpa using (List.mem_filter.1 hj).2
    have hmiss : missing loops (n :: names) files = todo.map (fun j => (n, j)) ++ missing loops names files := by
      unfold missing
      rw [List.flatMap_cons]
    rw [run]
    simp only [Bool.false_eq_true, if_false, h1, e]
    rw [runLoops_spec n todo files budget hnd hmi]
    simp only [decide_eq_true_eq]
    by_cases hb : budget < todo.length
    · rw [if_pos hb, hmiss, List.take_append_of_le_length (by rw [List.length_map]; omega), List.map_take, List.map_take]
      simp only [List.map_take, List.map_map]
      rfl
    · rw [if_neg hb]
      have htake : todo.take budget = todo := List.take_of_length_le (by omega)
      have hf' : Ours all (files ++ todo.map (fileName n)) := by
        intro f hfm
        rcases List.mem_append.1 hfm with hfm | hfm
        · exact hf f hfm
        · obtain ⟨j, _, rfl⟩ := List.mem_map.1 hfm
          exact ⟨n, hn, j, rfl⟩
      rw [htake, run_spec loops all hc names _ _ (fun m hm => hs m (List.mem_cons_of_mem _ hm)) hd.2 hf']
      have hcong : missing loops names (files ++ todo.map (fileName n)) = missing loops names files := by
        refine missing_congr loops names files _ fun m hm j h => ?_
        obtain ⟨i, _, hi⟩ := List.mem_map.1 h
        exact hd.1 ((fileName_inj hi).1 ▸ hm)
      simp only [hcong, hmiss]
      have hl : (todo.map fun j => (n, j)).length = todo.length := List.length_map _
      rw [List.take_append, hl, List.take_of_length_le (l := todo.map fun j => (n, j)) (by rw [hl]; omega)]
      simp [List.map_append, Function.comp_def]

theorem missing_drop (loops : Nat) (names files : List (List Char)) (hd : names.Nodup) (budget : Nat) :
    missing loops names (files ++ ((missing loops names files).take budget).map fun p => fileName p.1 p.2) = (missing loops names files).drop budget := by
  have hnd : (missing loops names files).Nodup := by
    unfold missing
    rw [List.nodup_flatMap]
    refine ⟨fun n _ => (List.nodup_range.filter _).map (fun a b h => (Prod.mk.inj h).2), ?_⟩
    refine hd.imp ?_
    intro a b hab
    rw [Function.onFun, List.disjoint_left]
    rintro p hp hq
    obtain ⟨_, _, rfl⟩ := List.mem_map.1 hp
    obtain ⟨_, _, h⟩ := List.mem_map.1 hq
    exact hab (Prod.mk.inj h).1.symm
  have hfil : ∀ done : List (List Char × Nat), missing loops names (files ++ done.map fun p => fileName p.1 p.2) = (missing loops names files).filter fun p => decide (p ∉ done) := by
    intro done
    unfold missing
    rw [List.filter_flatMap]
    refine List.flatMap_congr fun n _ => ?_
    rw [List.filter_map, List.filter_filter]
    congr 1
    refine List.filter_congr fun j _ => ?_
    rw [Bool.eq_iff_iff]
    simp only [decide_eq_true_eq, List.mem_append, not_or, Bool.and_eq_true, Function.comp]
    have : fileName n j ∈ done.map (fun p => fileName p.1 p.2) ↔ (n, j) ∈ done := by
      constructor
      · intro h
        obtain ⟨p, hp, he⟩ := List.mem_map.1 h
        obtain ⟨h1, h2⟩ := fileName_inj he
        have : p = (n, j) := Prod.ext h1 h2
        rwa [this] at hp
      · intro h
        exact List.mem_map.2 ⟨_, h, rfl⟩
    rw [this, and_comm]
  rw [hfil]
  generalize missing loops names files = M at hnd ⊢
  conv_lhs => rw [← List.take_append_drop budget M]
  rw [List.filter_append]
  have hdis : List.Disjoint (M.take budget) (M.drop budget) := by
    have := hnd
    rw [← List.take_append_drop budget M, List.nodup_append] at this
    rw [List.disjoint_left]
    exact fun a ha hb => this.2.2 a ha a hb rfl
  rw [List.filter_eq_nil_iff.2, List.filter_eq_self.2, List.nil_append]
  · intro a ha
    rw [List.take_append_drop, decide_eq_true_eq]
    exact fun h => List.disjoint_left.1 hdis h ha
  · intro a ha
    rw [List.take_append_drop]
    simpa using ha

end Verif.RlGlue

namespace Verif.Props
open Verif.RlGlue Verif.RlGlue.Spec
open Verif.DataSet (Err)
open Verif.Agent Verif.Agent.Spec
open Verif.Sequential (SDS)
open Verif.Sequential.Spec (Shows)

/-- **C154, sessions.** In every RL-Glue session with episodes of at least one step, the adapter follows the protocol of pybrain agents: nothing raises, and by default (learning after every episode) the learner is
called once per episode, with a history that holds exactly this episode: the records of observation, action and reward as they happened, followed by one empty sequence. -/
theorem C154_session {K : Type} [Zero K] (indim outdim : Nat) (eps : List (List (Rec K))) (hne : ∀ xs ∈ eps, xs ≠ []) (hw : ∀ xs ∈ eps, ∀ y ∈ xs, y.obs.length = indim ∧ y.action.length = outdim) :
    ∃ x, (Adapter.new (LAgent.init indim outdim true) 1).session (session eps) = .ok x ∧ List.Forall₂ (fun h xs => Shows h [xs.map Rec.sample, []]) x.learned eps := by
  obtain ⟨x, hs, h1, h2, h3⟩ := episodes_spec (K := K) indim outdim eps [] (Adapter.new (LAgent.init indim outdim true).reset 1) hne hw Nat.one_pos rfl
    (good_call indim outdim _ _ (good_init indim outdim true) .reset trivial).1
  refine ⟨x, ?_, ?_⟩
  · rw [session, List.cons_append, Adapter.session]
    exact h1
  · rw [h2]
    have : ∀ (eps : List (List (Rec K))) (c : Nat), groups 1 c [] eps = eps.map fun xs => [xs] := by
      intro eps
      induction eps with
      | nil => intro c; rfl
      | cons y eps ih =>
        intro c
        rw [groups, if_pos (Nat.mod_one _), ih]
        rfl
    rw [Adapter.new, this, List.forall₂_map_right_iff] at h3
    simpa [withOpen, Adapter.new] using h3

/-- **C154, learning cycles.** With a learning cycle of `n` episodes, the learner sees the episodes in blocks of `n` — after a first block of `n - 1` only — and episodes that complete no block are not learned from. -/
theorem C154_cycles {K : Type} [Zero K] (indim outdim n : Nat) (hn : 2 ≤ n) (first rest : List (List (Rec K))) (blocks : List (List (List (Rec K)))) (hf : first.length = n - 1)
    (hb : ∀ b ∈ blocks, b.length = n) (hr : rest.length < n) (hne : ∀ xs ∈ first ++ blocks.flatten ++ rest, xs ≠ [])
    (hw : ∀ xs ∈ first ++ blocks.flatten ++ rest, ∀ y ∈ xs, y.obs.length = indim ∧ y.action.length = outdim) :
    ∃ x, (Adapter.new (LAgent.init indim outdim true) n).session (session (first ++ blocks.flatten ++ rest)) = .ok x ∧ List.Forall₂ (fun h g => Shows h (withOpen g)) x.learned (first :: blocks) := by
  obtain ⟨x, hs, h1, h2, h3⟩ := episodes_spec (K := K) indim outdim _ [] (Adapter.new (LAgent.init indim outdim true).reset n) hne hw (by show 0 < n; omega) rfl
    (good_call indim outdim _ _ (good_init indim outdim true) .reset trivial).1
  refine ⟨x, ?_, ?_⟩
  · rw [session, List.cons_append, Adapter.session]
    exact h1
  · rw [h2]
    have hm : 1 % n = 1 := Nat.mod_eq_of_lt (by omega)
    simp only [Adapter.new, List.append_assoc] at h3
    rw [groups_fill n (by omega) first _ 1 [] (by intro h; rw [h] at hf; simp at hf; omega) (by rw [hm]; omega),
      groups_blocks n (by omega) rest hr blocks _ hb (by rw [hf, show 1 + (n - 1) = n by omega, Nat.mod_self])] at h3
    simpa [Adapter.new] using h3

example : (∀ xs ∈ [[(⟨[1], [2], 3⟩ : Rec Nat)], [⟨[1], [2], 4⟩, ⟨[0], [1], 5⟩]], xs ≠ []) := by decide

/-- **C154 violated: the first learning cycle.** "Learning is done after a certain amount of" episodes: not the first time. With a cycle of two, learning happens after the first episode, from one episode. -/
theorem C154_negation_first : (((Adapter.new (LAgent.init (K := Int) 1 1 true) 2).session (session [[⟨[1], [2], 3⟩]])).toOption.map fun x => x.learned.length) = some 1 := by decide +kernel

/-- **C154 violated: an empty episode.** The learner never sees the episodes alone: there is always a further, empty one at the end of the history, so that averages over the sequences are over one too many. -/
theorem C154_negation_empty {K : Type} [Zero K] (indim outdim : Nat) (eps : List (List (Rec K))) (hne : ∀ xs ∈ eps, xs ≠ []) (hw : ∀ xs ∈ eps, ∀ y ∈ xs, y.obs.length = indim ∧ y.action.length = outdim) :
    ∃ x, (Adapter.new (LAgent.init indim outdim true) 1).session (session eps) = .ok x ∧ ∀ h ∈ x.learned, h.getNumSequences = 2 ∧ h.getSequenceLength 1 = .ok 0 := by
  obtain ⟨x, h1, h2⟩ := C154_session indim outdim eps hne hw
  refine ⟨x, h1, fun h hh => ?_⟩
  have : ∀ (l : List (SDS K)) (m : List (List (Rec K))), List.Forall₂ (fun h xs => Shows h [xs.map Rec.sample, []]) l m → ∀ h ∈ l, h.getNumSequences = 2 ∧ h.getSequenceLength 1 = .ok 0 := by
    intro l m hlm
    induction hlm with
    | nil => simp
    | cons hd _ ih =>
      intro h hh
      rcases List.mem_cons.1 hh with rfl | hh
      · exact ⟨hd.1, (hd.2.1 1 (by simp)).2⟩
      · exact ih h hh
  exact this _ _ h2 h hh

/-- **C154, statistics.** A benchmarking agent records the average reward and the length of every episode of a session. -/
theorem C154_statistics {K : Type} [Field K] (eps : List (List (Rec K))) (hne : ∀ xs ∈ eps, xs ≠ []) :
    Bench.session ⟨[], []⟩ (session eps) = .ok ⟨eps.map (fun xs => ((xs.map Rec.reward).sum / (xs.length : K), xs.length)), []⟩ := by
  rw [session, List.cons_append, Bench.session]
  simp only [Bench.receive]
  rw [bench_episodes eps [] hne]
  rfl

/-- **C154, benchmarks.** If no name of an agent continues another one with a dash, a run performs exactly the missing tests of each agent, in order, and adds their files; if it is killed after any number of tests, the
files of these are there, and the next run performs exactly the remaining ones: no test is lost and none is performed twice. -/
theorem C154_resume (loops : Nat) (names files : List (List Char)) (hc : NoClash names) (hd : names.Nodup) (hf : Ours names files) (budget : Nat) :
    ∃ files', run loops false names files budget = .ok ((missing loops names files).take budget, files') ∧
      (∀ f, f ∈ files' ↔ f ∈ files ∨ ∃ p ∈ (missing loops names files).take budget, f = fileName p.1 p.2) ∧
      ∀ budget', (missing loops names files).length ≤ budget + budget' → ∃ files'', run loops false names files' budget' = .ok ((missing loops names files).drop budget, files'') ∧
        ∀ n ∈ names, ∀ j < loops, fileName n j ∈ files'' := by
  refine ⟨_, run_spec loops names hc names files budget (fun _ h => h) hd hf, ?_, ?_⟩
  · intro f
    rw [List.mem_append, List.mem_map]
    simp only [eq_comm]
  · intro budget' hb
    have hf' : Ours names (files ++ ((missing loops names files).take budget).map fun p => fileName p.1 p.2) := by
      intro f h
      rcases List.mem_append.1 h with h | h
      · exact hf f h
      · obtain ⟨p, hp, rfl⟩ := List.mem_map.1 h
        obtain ⟨n, hn, hp⟩ := List.mem_flatMap.1 (List.mem_of_mem_take hp)
        obtain ⟨j, _, rfl⟩ := List.mem_map.1 hp
        exact ⟨n, hn, j, rfl⟩
    have hr := run_spec loops names hc names _ budget' (fun _ h => h) hd hf'
    rw [missing_drop loops names files hd budget, List.take_of_length_le (l := (missing loops names files).drop budget) (by rw [List.length_drop]; omega)] at hr
    refine ⟨_, hr, fun n hn j hj => ?_⟩
    rw [List.append_assoc, ← List.map_append, List.take_append_drop, List.mem_append]
    by_cases h : fileName n j ∈ files
    · exact .inl h
    · exact .inr (List.mem_map.2 ⟨(n, j), List.mem_flatMap.2 ⟨n, hn, List.mem_map.2 ⟨j, List.mem_filter.2 ⟨List.mem_range.2 hj, by simpa using h⟩, rfl⟩⟩, rfl⟩)

example : NoClash ["a".toList, "b".toList] ∧ Ours ["a".toList, "b".toList] [fileName "a".toList 1] ∧
    missing 2 ["a".toList, "b".toList] [fileName "a".toList 1] = [("a".toList, 0), ("b".toList, 0), ("b".toList, 1)] := by
  refine ⟨?_, ?_, by decide +kernel⟩
  · unfold NoClash
    decide
  · intro f hf
    exact ⟨"a".toList, by simp, 1, by simpa using hf⟩

/-- **C154 violated: names with dashes.** If an agent's name continues another one's with a dash, files of the one are taken for files of the other: after testing the agent "a-b", the agent "a" is not tested at all, in
spite of being listed, for any number of loops. -/
theorem C154_negation_prefix (n m : List Char) (loops budget : Nat) (hb : loops ≤ budget) :
    ∃ files, run loops false [n ++ '-' :: m, n] [] budget = .ok ((List.range loops).map (fun j => (n ++ '-' :: m, j)), files) := by
  have hl : (List.range loops).length = loops := List.length_range
  have hmap : ∀ js : List Nat, (js.map (fileName (n ++ '-' :: m))).mapM index = .ok js := by
    intro js
    induction js with
    | nil => rfl
    | cons j js ih =>
      rw [List.map_cons, List.mapM_cons, index_fileName, ih]
      rfl
  have hfil : ((List.range loops).map (fileName (n ++ '-' :: m))).filter (fun f => (n ++ ['-']).isPrefixOf f) = (List.range loops).map (fileName (n ++ '-' :: m)) := by
    rw [List.filter_eq_self]
    intro f hf
    obtain ⟨j, _, rfl⟩ := List.mem_map.1 hf
    rw [List.isPrefixOf_iff_prefix]
    exact ⟨m ++ '-' :: (Nat.repr j).toList, by simp [fileName]⟩
  have hd : doneLoops (n ++ '-' :: m) [] = .ok [] := rfl
  refine ⟨(List.range loops).map (fileName (n ++ '-' :: m)), ?_⟩
  rw [RlGlue.run]
  simp only [Bool.false_eq_true, if_false, hd]
  have e : ((List.range loops).filter fun j => !([] : List Nat).contains j) = List.range loops := by simp
  rw [e, runLoops_spec _ _ _ _ List.nodup_range (by simp), List.take_of_length_le (by omega), hl]
  simp only [decide_eq_true_eq, if_neg (by omega : ¬ budget < loops), List.nil_append]
  rw [RlGlue.run]
  simp only [Bool.false_eq_true, if_false, doneLoops, hfil, hmap]
  have e2 : ((List.range loops).filter fun j => !(List.range loops).contains j) = [] := by
    rw [List.filter_eq_nil_iff]
    intro j hj
    simpa using List.mem_range.1 hj
  rw [e2]
  simp [runLoops, RlGlue.run]

end Verif.Props
