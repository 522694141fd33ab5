import Verif.Spec.Agent
import Verif.Lemmas.SequentialShow
/-
C43: logging agents; C69: what experiments record and return.
-/
namespace Verif.Agent
open Verif.DataSet (Err)
open Verif.Sequential (SDS Inv)
open Verif.Sequential.Spec (Seqs)
open Spec

variable {K : Type} [Zero K]

/-- the phase of an agent -/
def LAgent.phase (g : LAgent K) : Phase K :=
  match g.lastobs, g.lastaction, g.lastreward with
  | some o, none, none => .observed o
  | some o, some a, none => .acted o a
  | _, _, _ => .idle

/-- attributes that can occur: a set action comes with a set observation, a set reward with both -/
def LAgent.Reach (indim outdim : Nat) (g : LAgent K) : Prop :=
  (g.lastobs = none ∧ g.lastaction = none ∧ g.lastreward = none) ∨
  (∃ o, o.length = indim ∧ g.lastobs = some o ∧ g.lastaction = none ∧ g.lastreward = none) ∨
  (∃ o a, o.length = indim ∧ a.length = outdim ∧ g.lastobs = some o ∧ g.lastaction = some a)

abbrev labels : List String := ["state", "action", "reward"]
abbrev dims (indim outdim : Nat) : List Nat := [indim, outdim, 1]

theorem labels_nodup : labels.Nodup := by decide

/-- agent and specification agree -/
def Good (indim outdim : Nat) (g : LAgent K) (s : Phase K × Seqs K) : Prop :=
  g.Reach indim outdim ∧ g.phase = s.1 ∧ Inv labels (dims indim outdim) g.history s.2

theorem good_init (indim outdim : Nat) (log : Bool) : Good indim outdim (LAgent.init (K := K) indim outdim log) (.idle, [[]]) :=
  ⟨Or.inl ⟨rfl, rfl, rfl⟩, rfl, Sequential.inv_init (K := K) [("state", indim), ("action", outdim), ("reward", 1)] labels_nodup⟩

theorem good_call (indim outdim : Nat) (g : LAgent K) (s : Phase K × Seqs K) (h : Good indim outdim g s) (c : Call K) (hc : okCall indim outdim c) :
    Good indim outdim (g.call c).1 (step g.logging s c).1 ∧ (g.call c).2 = (step g.logging s c).2 ∧ (g.call c).1.logging = g.logging := by
  obtain ⟨hr, hp, hi⟩ := h
  obtain ⟨ph, S⟩ := s
  obtain ⟨lo, la, lr, lg, hist⟩ := g
  simp only at hp hi
  subst hp
  simp only [LAgent.Reach] at hr
  cases c with
  | observe o => exact ⟨⟨Or.inr (Or.inl ⟨o, hc, rfl, rfl, rfl⟩), rfl, hi⟩, rfl, rfl⟩
  | act a =>
    rcases hr with ⟨rfl, rfl, rfl⟩ | ⟨o, ho, rfl, rfl, rfl⟩ | ⟨o, b, ho, hb, rfl, rfl⟩
    · exact ⟨⟨Or.inl ⟨rfl, rfl, rfl⟩, rfl, hi⟩, rfl, rfl⟩
    · exact ⟨⟨Or.inr (Or.inr ⟨o, a, ho, hc, rfl, rfl⟩), rfl, hi⟩, rfl, rfl⟩
    · cases lr <;> exact ⟨⟨Or.inr (Or.inr ⟨o, b, ho, hb, rfl, rfl⟩), rfl, hi⟩, rfl, rfl⟩
  | reward r =>
    rcases hr with ⟨rfl, rfl, rfl⟩ | ⟨o, ho, rfl, rfl, rfl⟩ | ⟨o, b, ho, hb, rfl, rfl⟩
    · exact ⟨⟨Or.inl ⟨rfl, rfl, rfl⟩, rfl, hi⟩, rfl, rfl⟩
    · exact ⟨⟨Or.inr (Or.inl ⟨o, ho, rfl, rfl, rfl⟩), rfl, hi⟩, rfl, rfl⟩
    · cases lr with
      | some q => exact ⟨⟨Or.inr (Or.inr ⟨o, b, ho, hb, rfl, rfl⟩), rfl, hi⟩, rfl, rfl⟩
      | none =>
        have hok : Sequential.Spec.okSample (dims indim outdim) [o, b, [r]] = true := by
          simp [Sequential.Spec.okSample, ho, hb]
        have hadd := Inv.add hi labels_nodup rfl _ hok
        cases lg with
        | true => exact ⟨⟨Or.inr (Or.inr ⟨o, b, ho, hb, rfl, rfl⟩), rfl, hadd.2⟩, hadd.1, rfl⟩
        | false => exact ⟨⟨Or.inr (Or.inr ⟨o, b, ho, hb, rfl, rfl⟩), rfl, hi⟩, rfl, rfl⟩
  | newEpisode =>
    have hn := Inv.newSequence hi (by decide)
    cases lg with
    | true => exact ⟨⟨hr, rfl, hn.2⟩, hn.1, rfl⟩
    | false => exact ⟨⟨hr, rfl, hi⟩, rfl, rfl⟩
  | reset => exact ⟨⟨Or.inl ⟨rfl, rfl, rfl⟩, rfl, Inv.clear hi⟩, rfl, rfl⟩

theorem good_calls (indim outdim : Nat) (cs : List (Call K)) (g : LAgent K) (s : Phase K × Seqs K) (h : Good indim outdim g s)
    (hc : ∀ c ∈ cs, okCall indim outdim c) : Good indim outdim (g.calls cs) (run g.logging s cs) ∧ (g.calls cs).logging = g.logging := by
  induction cs generalizing g s with
  | nil => exact ⟨h, rfl⟩
  | cons c cs ih =>
    obtain ⟨h1, _, h3⟩ := good_call indim outdim g s h c (hc c List.mem_cons_self)
    have := ih _ _ h1 (fun d hd => hc d (List.mem_cons_of_mem _ hd))
    rw [h3] at this
    exact this

omit [Zero K] in
theorem run_append (log : Bool) (s : Phase K × Seqs K) (a b : List (Call K)) : run log s (a ++ b) = run log (run log s a) b := by
  induction a generalizing s with
  | nil => rfl
  | cons c a ih => exact ih _

omit [Zero K] in
theorem addLast_concat (S : Seqs K) (cur : List (List (List K))) (x : List (List K)) :
    Sequential.Spec.addLast (S ++ [cur]) x = S ++ [cur ++ [x]] := by
  simp [Sequential.Spec.addLast]

omit [Zero K] in
theorem run_cycles (xs : List (Rec K)) (S : Seqs K) (cur : List (List (List K))) :
    run true (.idle, S ++ [cur]) (xs.flatMap cycle) = (.idle, S ++ [cur ++ xs.map Rec.sample]) := by
  induction xs generalizing cur with
  | nil => simp [run]
  | cons x xs ih =>
    rw [List.flatMap_cons, run_append]
    have : run true (.idle, S ++ [cur]) (cycle x) = (.idle, S ++ [cur ++ [x.sample]]) := by
      simp only [cycle, run, step, if_true, addLast_concat]
    rw [this, ih]
    simp

/-- what is stored after the episodes `eps` (each with at least one record) -/
def stored (eps : List (List (Rec K))) : Seqs K := if eps = [] then [[]] else eps.map (fun xs => xs.map Rec.sample)

omit [Zero K] in
theorem stored_snoc (eps : List (List (Rec K))) (xs : List (Rec K)) : stored (eps ++ [xs]) = eps.map (fun xs => xs.map Rec.sample) ++ [xs.map Rec.sample] := by
  simp [stored]

omit [Zero K] in
theorem newEpisode_spec (eps : List (List (Rec K))) (h : ∀ xs ∈ eps, xs ≠ []) (ph : Phase K) :
    step true (ph, stored eps) .newEpisode = ((ph, eps.map (fun xs => xs.map Rec.sample) ++ [[]]), none) := by
  rcases List.eq_nil_or_concat eps with rfl | ⟨init, last, rfl⟩
  · simp [step, stored, Sequential.Spec.step]
  · have hl : last ≠ [] := h last (by simp)
    have hf : (List.map (fun xs => List.map Rec.sample xs) (init ++ [last])).flatten ≠ [] := by
      simp [hl]
    have hg : (List.map (fun xs => List.map Rec.sample xs) (init ++ [last])).getLastD [] ≠ [] := by
      simp [hl]
    simp only [step, if_true, stored, List.concat_eq_append]
    rw [if_neg (by simp)]
    simp only [Sequential.Spec.step]
    rw [if_neg hf, if_neg hg]

omit [Zero K] in
theorem run_episode (eps : List (List (Rec K))) (h : ∀ xs ∈ eps, xs ≠ []) (xs : List (Rec K)) :
    run true (.idle, stored eps) (episodeCalls xs) = (.idle, stored (eps ++ [xs])) := by
  rw [episodeCalls, run, newEpisode_spec eps h, run_cycles, stored_snoc]
  simp

omit [Zero K] in
theorem run_episodes (eps done : List (List (Rec K))) (h : ∀ xs ∈ done ++ eps, xs ≠ []) :
    run true (.idle, stored done) (eps.flatMap episodeCalls) = (.idle, stored (done ++ eps)) := by
  induction eps generalizing done with
  | nil => simp [run]
  | cons x eps ih =>
    rw [List.flatMap_cons, run_append, run_episode done (fun y hy => h y (by simp [hy])), ih (done ++ [x]) (by simpa using h)]
    simp

theorem good_call_eq {indim outdim : Nat} {g : LAgent K} {s s' : Phase K × Seqs K} {c : Call K} {e : Option Err} (h : Good indim outdim g s) (hc : okCall indim outdim c)
    (hl : g.logging = true) (hs : step true s c = (s', e)) : ∃ g', g.call c = (g', e) ∧ Good indim outdim g' s' ∧ g'.logging = true := by
  obtain ⟨h1, h2, h3⟩ := good_call indim outdim g s h c hc
  rw [hl, hs] at h1 h2
  exact ⟨(g.call c).1, Prod.ext rfl h2, h1, h3.trans hl⟩

variable {τ μ : Type}

/-- one interaction with an agent, in terms of the specification -/
theorem oneInteraction_spec (indim outdim : Nat) (t : RTask τ K) (p : Policy μ K) (ho : ∀ s, (t.getObservation s).1.length = indim)
    (ha : ∀ m o, (p.choose m o).1.length = outdim) (x : Exp τ μ K) (S : Seqs K) (cur : List (List (List K))) (ph : Phase K)
    (hg : Good indim outdim x.agent (ph, S ++ [cur])) (hl : x.agent.logging = true) :
    ∃ g', oneInteraction t p x = .ok ((interact t p x.task x.policy).1.reward,
        ⟨(interact t p x.task x.policy).2.1, g', (interact t p x.task x.policy).2.2, x.stepid + 1⟩) ∧
      Good indim outdim g' (.idle, S ++ [cur ++ [(interact t p x.task x.policy).1.sample]]) ∧ g'.logging = true := by
  obtain ⟨g1, e1, h1, l1⟩ := good_call_eq (c := .observe (t.getObservation x.task).1) hg (ho _) hl rfl
  obtain ⟨g2, e2, h2, l2⟩ := good_call_eq (c := .act (p.choose x.policy (t.getObservation x.task).1).1) h1 (ha _ _) l1 rfl
  obtain ⟨g3, e3, h3, l3⟩ := good_call_eq
    (c := .reward (t.getReward (t.performAction (t.getObservation x.task).2 (p.choose x.policy (t.getObservation x.task).1).1)).1) h2 trivial l2 rfl
  simp only [if_true, addLast_concat] at h3
  refine ⟨g3, ?_, h3, l3⟩
  simp only [LAgent.call, Prod.mk.injEq, and_true] at e1
  simp only [LAgent.call] at e2 e3
  simp only [oneInteraction, e1, e2, e3, interact]

theorem doInteractions_spec (indim outdim : Nat) (t : RTask τ K) (p : Policy μ K) (ho : ∀ s, (t.getObservation s).1.length = indim)
    (ha : ∀ m o, (p.choose m o).1.length = outdim) (n : Nat) (x : Exp τ μ K) (S : Seqs K) (cur : List (List (List K))) (ph : Phase K)
    (hg : Good indim outdim x.agent (ph, S ++ [cur])) (hl : x.agent.logging = true) :
    ∃ g', doInteractions t p n x = .ok (x.stepid + n, ⟨(interactions t p n x.task x.policy).2.1, g', (interactions t p n x.task x.policy).2.2, x.stepid + n⟩) ∧
      (∃ ph', Good indim outdim g' (ph', S ++ [cur ++ (interactions t p n x.task x.policy).1.map Rec.sample])) ∧ g'.logging = true := by
  induction n generalizing x cur ph with
  | zero => exact ⟨x.agent, rfl, ⟨ph, by simpa [interactions] using hg⟩, hl⟩
  | succ n ih =>
    obtain ⟨g1, e1, h1, l1⟩ := oneInteraction_spec indim outdim t p ho ha x S cur ph hg hl
    obtain ⟨g', e2, ⟨ph', h2⟩, l2⟩ := ih ⟨_, g1, _, _⟩ _ _ h1 l1
    refine ⟨g', ?_, ⟨ph', ?_⟩, l2⟩
    · rw [doInteractions, e1]
      simp only
      rw [e2]
      simp only [interactions]
      rw [show x.stepid + 1 + n = x.stepid + (n + 1) by omega]
    · simpa [interactions] using h2

theorem oneEpisode_spec (indim outdim : Nat) (t : RTask τ K) (p : Policy μ K) (ho : ∀ s, (t.getObservation s).1.length = indim)
    (ha : ∀ m o, (p.choose m o).1.length = outdim) (fuel : Nat) (x : Exp τ μ K) (S : Seqs K) (cur : List (List (List K))) (ph : Phase K)
    (hg : Good indim outdim x.agent (ph, S ++ [cur])) (hl : x.agent.logging = true) (rs : List K) (res : Except Err (List K × Exp τ μ K))
    (h : oneEpisode t p fuel x rs = some res) :
    ∃ xs x', res = .ok (rs ++ xs.map Rec.reward, x') ∧ UntilFinished t p x.task x.policy xs x'.task x'.policy ∧
      x'.stepid = x.stepid + xs.length ∧ (∃ ph', Good indim outdim x'.agent (ph', S ++ [cur ++ xs.map Rec.sample])) ∧ x'.agent.logging = true := by
  induction fuel generalizing x cur ph rs with
  | zero =>
    rw [oneEpisode] at h
    split at h
    · rename_i hf; cases h; exact ⟨[], x, by simp, .done _ _ hf, rfl, ⟨ph, by simpa using hg⟩, hl⟩
    · cases h
  | succ fuel ih =>
    rw [oneEpisode] at h
    split at h
    · rename_i hf; cases h; exact ⟨[], x, by simp, .done _ _ hf, rfl, ⟨ph, by simpa using hg⟩, hl⟩
    · rename_i hf
      obtain ⟨g1, e1, h1, l1⟩ := oneInteraction_spec indim outdim t p ho ha x S cur ph hg hl
      rw [e1] at h
      simp only at h
      obtain ⟨xs, x', r1, r2, r3, ⟨ph', r4⟩, r5⟩ := ih _ _ _ h1 l1 _ h
      refine ⟨(interact t p x.task x.policy).1 :: xs, x', by simp [r1], .more _ _ _ _ _ (by simpa using hf) r2, ?_, ⟨ph', by simpa using r4⟩, r5⟩
      rw [r3, List.length_cons]
      simp only
      omega

omit [Zero K] in
theorem untilFinished_ne_nil {t : RTask τ K} {p : Policy μ K} {s : τ} {m : μ} {xs : List (Rec K)} {s' : τ} {m' : μ} (h : UntilFinished t p s m xs s' m')
    (hs : t.isFinished s = false) : xs ≠ [] := by
  cases h with
  | done _ _ h => rw [h] at hs; cases hs
  | more => simp

theorem doEpisodes_spec (indim outdim : Nat) (t : RTask τ K) (p : Policy μ K) (ho : ∀ s, (t.getObservation s).1.length = indim)
    (ha : ∀ m o, (p.choose m o).1.length = outdim) (hstart : ∀ s, t.isFinished (t.reset s) = false) (fuel n : Nat) (x : Exp τ μ K)
    (done : List (List (Rec K))) (hd : ∀ xs ∈ done, xs ≠ []) (ph : Phase K) (hg : Good indim outdim x.agent (ph, stored done)) (hl : x.agent.logging = true)
    (all : List (List K)) (res : Except Err (List (List K) × Exp τ μ K)) (h : doEpisodes t p fuel n x all = some res) :
    ∃ eps x', res = .ok (all ++ eps.map (fun xs => xs.map Rec.reward), x') ∧ eps.length = n ∧ (∀ xs ∈ eps, xs ≠ []) ∧
      Episodes t p x.task x.policy eps x'.task x'.policy ∧ (∃ ph', Good indim outdim x'.agent (ph', stored (done ++ eps))) ∧ x'.agent.logging = true := by
  induction n generalizing x done ph all with
  | zero =>
    rw [doEpisodes] at h
    cases h
    exact ⟨[], x, by simp, rfl, by simp, .nil _ _, ⟨ph, by simpa using hg⟩, hl⟩
  | succ n ih =>
    rw [doEpisodes] at h
    obtain ⟨g1, e1, h1, l1⟩ := good_call_eq (c := .newEpisode) hg trivial hl (newEpisode_spec done hd ph)
    simp only [LAgent.call] at e1
    rw [e1] at h
    simp only at h
    split at h
    · cases h
    · rename_i e he
      obtain ⟨_, _, hres, _⟩ := oneEpisode_spec indim outdim t p ho ha fuel ⟨t.reset x.task, g1, p.newEpisode x.policy, 0⟩ _ _ ph h1 l1 _ _ he
      cases hres
    · rename_i rs x1 he
      obtain ⟨xs, x', r1, r2, r3, ⟨ph', r4⟩, r5⟩ := oneEpisode_spec indim outdim t p ho ha fuel ⟨t.reset x.task, g1, p.newEpisode x.policy, 0⟩ _ _ ph h1 l1 _ _ he
      injection r1 with r1
      injection r1 with r1 r1'
      subst r1'
      have hxs := untilFinished_ne_nil r2 (hstart _)
      simp only [List.nil_append] at r1 r4
      rw [← stored_snoc] at r4
      have hd' : ∀ ys ∈ done ++ [xs], ys ≠ [] := by
        intro ys hy
        rcases List.mem_append.1 hy with hy | hy
        · exact hd ys hy
        · rw [List.mem_singleton.1 hy]; exact hxs
      obtain ⟨eps, x2, q1, q2, q3, q4, ⟨ph2, q5⟩, q6⟩ := ih x1 (done ++ [xs]) hd' ph' r4 r5 _ h
      refine ⟨xs :: eps, x2, by simp [q1, r1], by simp [q2], ?_, .cons _ _ _ _ _ _ _ _ r2 q4, ⟨ph2, by simpa using q5⟩, q6⟩
      intro ys hy
      rcases List.mem_cons.1 hy with rfl | hy
      · exact hxs
      · exact q3 ys hy

end Verif.Agent

namespace Verif.Props
open Verif.DataSet (Err)
open Verif.Agent Verif.Agent.Spec

variable {K : Type} [Zero K] {τ μ : Type}

/-- **C43 (protocol).** After every history of calls with observations and actions of the agent's dimensions, the agent's history holds exactly the sequences
of records that the protocol gives; every further call raises exactly when the protocol says so, and a call that raises leaves what is stored as it is. -/
theorem C43_protocol (indim outdim : Nat) (log : Bool) (cs : List (Call K)) (hcs : ∀ c ∈ cs, okCall indim outdim c) (c : Call K) (hc : okCall indim outdim c) :
    Sequential.Spec.Shows ((LAgent.init indim outdim log).calls cs).history (run log (.idle, [[]]) cs).2 ∧
    (((LAgent.init indim outdim log).calls cs).call c).2 = (step log (run log (.idle, [[]]) cs) c).2 ∧
    ((((LAgent.init indim outdim log).calls cs).call c).2 ≠ none →
      Sequential.Spec.Shows (((LAgent.init indim outdim log).calls cs).call c).1.history (run log (.idle, [[]]) cs).2) := by
  obtain ⟨h1, h2⟩ := good_calls indim outdim cs _ _ (good_init (K := K) indim outdim log) hcs
  obtain ⟨h3, h4, _⟩ := good_call indim outdim _ _ h1 c hc
  rw [h2] at h3 h4
  refine ⟨h1.2.2.shows (by decide), h4, fun hne => ?_⟩
  have h5 : (step log (run log (.idle, [[]]) cs) c).1 = run log (.idle, [[]]) cs := by
    have hne' : (step log (run log (.idle, [[]]) cs) c).2 ≠ none := fun h => hne (h4.trans h)
    generalize run log (.idle, [[]]) cs = s at hne' ⊢
    obtain ⟨ph, S⟩ := s
    cases c with
    | observe o => simp [step] at hne'
    | act a => cases ph <;> simp [step] at hne' ⊢
    | reward r => cases ph <;> simp [step] at hne' ⊢
    | newEpisode =>
      cases log
      · simp [step] at hne'
      · simp only [step, if_true, Sequential.Spec.step] at hne' ⊢
        split at hne'
        · simp at hne'
        · split at hne'
          · rename_i h1 h2
            rw [if_neg h1, if_pos h2]
          · simp at hne'
    | reset => simp [step] at hne'
  change Good indim outdim _ (step log (run log (.idle, [[]]) cs) c).1 at h3
  rw [h5] at h3
  exact h3.2.2.shows (by decide)

/-- **C43 (complete cycles).** Episodes of complete cycles, each with at least one, are stored as they happened: one sequence per episode, one sample
(observation, action, reward) per cycle. -/
theorem C43_episodes (indim outdim : Nat) (eps : List (List (Rec K))) (hne : ∀ xs ∈ eps, xs ≠ [])
    (hw : ∀ xs ∈ eps, ∀ x ∈ xs, x.obs.length = indim ∧ x.action.length = outdim) (hpos : eps ≠ []) :
    Sequential.Spec.Shows ((LAgent.init indim outdim true).calls (eps.flatMap episodeCalls)).history (eps.map (fun xs => xs.map Rec.sample)) := by
  have hcs : ∀ c ∈ eps.flatMap episodeCalls, okCall indim outdim c := by
    intro c hc
    obtain ⟨xs, hxs, hc⟩ := List.mem_flatMap.1 hc
    rcases List.mem_cons.1 hc with rfl | hc
    · trivial
    · obtain ⟨x, hx, hc⟩ := List.mem_flatMap.1 hc
      have := hw xs hxs x hx
      simp only [cycle, List.mem_cons, List.not_mem_nil, or_false] at hc
      rcases hc with rfl | rfl | rfl
      · exact this.1
      · exact this.2
      · trivial
  have h := (C43_protocol indim outdim true _ hcs .reset trivial).1
  have e := run_episodes eps [] (by simpa using hne)
  rw [show stored ([] : List (List (Rec K))) = [[]] from rfl] at e
  rw [e] at h
  simpa [stored, hpos] using h

/-- **C43: violated for repeated observations.** "Any other order raises" does not hold of `integrateObservation`: it never raises, in any state, and the
pending observation (and the action chosen for it) is dropped. -/
theorem C43_negation_observe (g : LAgent K) (o : List K) : (g.call (.observe o)).2 = none ∧ (g.call (.observe o)).1.phase = .observed o := ⟨rfl, rfl⟩

/-- without logging nothing is stored -/
theorem C43_no_logging (indim outdim : Nat) (cs : List (Call K)) (hcs : ∀ c ∈ cs, okCall indim outdim c) :
    Sequential.Spec.Shows ((LAgent.init indim outdim false).calls cs).history [[]] := by
  have h := (C43_protocol indim outdim false cs hcs .reset trivial).1
  have e : ∀ (cs : List (Call K)) ph, (run false (ph, [[]]) cs).2 = [[]] := by
    intro cs
    induction cs with
    | nil => intro ph; rfl
    | cons c cs ih =>
      intro ph
      cases c <;> cases ph <;> exact ih _
  rw [e] at h
  exact h

/-- non-vacuity: a history with refused calls, a dropped observation and two episodes -/
example : (∀ c ∈ ([.act [1], .newEpisode, .observe [1, 2], .reward 5, .observe [3, 4], .act [7], .act [8], .reward 9, .reward 9, .newEpisode, .observe [5, 6], .act [0], .reward 1]
      : List (Call Nat)), okCall 2 1 c) ∧
    (run true (.idle, [[]]) ([.act [1], .newEpisode, .observe [1, 2], .reward 5, .observe [3, 4], .act [7], .act [8], .reward 9, .reward 9, .newEpisode, .observe [5, 6],
      .act [0], .reward 1] : List (Call Nat))).2 = [[[[3, 4], [7], [9]]], [[[5, 6], [0], [1]]]] := by
  refine ⟨by simp [okCall], by decide⟩

/-- **C69 (interactions).** `doInteractions(n)` on a fresh logging agent never raises, does `n` interactions and returns the number of interactions so far;
they are stored in order in one sequence. -/
theorem C69_interactions (indim outdim : Nat) (t : RTask τ K) (p : Policy μ K) (ho : ∀ s, (t.getObservation s).1.length = indim)
    (ha : ∀ m o, (p.choose m o).1.length = outdim) (s : τ) (m : μ) (n : Nat) :
    ∃ x', doInteractions t p n ⟨s, LAgent.init indim outdim true, m, 0⟩ = .ok (n, x') ∧ (x'.task, x'.policy) = (interactions t p n s m).2 ∧
      Sequential.Spec.Shows x'.agent.history [(interactions t p n s m).1.map Rec.sample] ∧ (interactions t p n s m).1.length = n := by
  obtain ⟨g', e, ⟨ph', h⟩, _⟩ := doInteractions_spec indim outdim t p ho ha n ⟨s, LAgent.init indim outdim true, m, 0⟩ [] [] .idle (good_init indim outdim true) rfl
  refine ⟨_, by simpa using e, rfl, ?_, ?_⟩
  · simpa using h.2.2.shows (by decide)
  · have hlen : ∀ (n : Nat) (s : τ) (m : μ), (interactions t p n s m).1.length = n := by
      intro n
      induction n with
      | zero => intro s m; rfl
      | succ n ih => intro s m; simp [interactions, ih]
    exact hlen n s m

/-- **C69 (episodes).** For a task which is never finished directly after its reset, `doEpisodes(n)` on a fresh logging agent never raises. When it returns,
it has run `n` episodes, each from the reset task to the first finished state; the agent's history holds exactly these episodes (observation, action and reward of each
interaction), and the returned lists are their rewards. -/
theorem C69_episodes (indim outdim : Nat) (t : RTask τ K) (p : Policy μ K) (ho : ∀ s, (t.getObservation s).1.length = indim)
    (ha : ∀ m o, (p.choose m o).1.length = outdim) (hstart : ∀ s, t.isFinished (t.reset s) = false) (s : τ) (m : μ) (fuel n : Nat) (hn : 0 < n)
    (res : Except Err (List (List K) × Exp τ μ K)) (h : doEpisodes t p fuel n ⟨s, LAgent.init indim outdim true, m, 0⟩ [] = some res) :
    ∃ eps x', res = .ok (eps.map (fun xs => xs.map Rec.reward), x') ∧ eps.length = n ∧ Episodes t p s m eps x'.task x'.policy ∧
      Sequential.Spec.Shows x'.agent.history (eps.map (fun xs => xs.map Rec.sample)) := by
  obtain ⟨eps, x', h1, h2, h3, h4, ⟨ph, h5⟩, _⟩ := doEpisodes_spec indim outdim t p ho ha hstart fuel n ⟨s, LAgent.init indim outdim true, m, 0⟩ [] (by simp) .idle
    (good_init indim outdim true) rfl [] res h
  refine ⟨eps, x', by simpa using h1, h2, h4, ?_⟩
  have h6 := h5.2.2.shows (by decide)
  have hne : eps ≠ [] := by rintro rfl; simp at h2; omega
  simpa [stored, hne] using h6

/-- a task counting down from 2, rewarding 1 per step; the agent answers with its observation -/
def countdown : RTask Nat Nat := ⟨fun s => ([s], s), fun s _ => s - 1, fun s => (1, s), fun _ => 2, fun s => s == 0⟩

/-- the hypotheses are met, and two episodes of two steps are run -/
example : (∀ s, (countdown.getObservation s).1.length = 1) ∧ (∀ s, countdown.isFinished (countdown.reset s) = false) ∧
    ((doEpisodes countdown (⟨fun m o => (o.take 1 ++ List.replicate (1 - o.length) 0, m), id⟩ : Policy Unit Nat) 5 2 ⟨7, LAgent.init 1 1 true, (), 0⟩ []).map
      (fun r => r.toOption.map (fun q => q.1))) = some (some [[1, 1], [1, 1]]) :=
  ⟨fun _ => rfl, fun _ => rfl, by decide +kernel⟩

end Verif.Props
