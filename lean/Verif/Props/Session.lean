import Verif.Lemmas.Session
import Verif.Props.Eval
import Mathlib.Tactic.IntervalCases

/-! # C75: evaluators

`Session.calls` executes a list of calls of the methods of any number of evaluators of one context, mixed with calls that build tensors. -/

namespace Verif.Props
open Verif Verif.Spec Verif.Eval Verif.Graph Verif.Session Relation
variable {Op V E W : Type}

/-- The targets of each run are tensors of the graph as it is then (in Rust handles come from the graph). -/
def HandlesExist (O : Ops Op) (g0 : Graph Op) (cs : List (Call Op V)) : Prop :=
  ∀ pre e post g ids, cs = pre ++ .run e :: post → g0.execAll O (built pre) = .ok (g, ids) → ∀ t ∈ targetsOf e pre, t < g.size

/-- **C75** Sessions in general, also with ops that write to variables: there are variables and worlds `envAt k`, `worldAt k` before each call, which only runs change. A run of an
evaluator executes exactly the ops needed for the tensors pushed to this evaluator so far, each once, on the variables left by the previous runs and with the feeds of this
evaluator, in the graph as it then is; and it returns one result for each of these tensors, in the order of the pushes. -/
theorem C75_sequence (O : Ops Op) (S : Sem Op V E W) (fuel : Nat) (g0 : Graph Op) (env : List V) (w : W) (cs : List (Call Op V)) (s' : Session Op V W) (rs : List (List (Except E V)))
    (hg : Reachable O g0) (hh : HandlesExist O g0 cs) (h : calls O S fuel (start g0 env w) cs = some (.ok (s', rs))) :
    rs.length = cs.length ∧ ∃ (envAt : Nat → List V) (worldAt : Nat → W), envAt 0 = env ∧ worldAt 0 = w ∧ s'.env = envAt cs.length ∧ s'.world = worldAt cs.length ∧
      (∀ k c, cs[k]? = some c → (∀ e, c ≠ .run e) → envAt (k + 1) = envAt k ∧ worldAt (k + 1) = worldAt k) ∧
      ∀ pre e post, cs = pre ++ .run e :: post → ∃ g ids feeds log final r,
        g0.execAll O (built pre) = .ok (g, ids) ∧ FeedsAre e pre feeds ∧
        ExecList S g feeds (.start (envAt pre.length) (worldAt pre.length)) log final ∧
        (log.map Prod.fst).Nodup ∧ (∀ b, b ∈ log.map Prod.fst ↔ Needed g (targetsOf e pre) b) ∧
        final.env = envAt (pre.length + 1) ∧ final.world = worldAt (pre.length + 1) ∧
        rs[pre.length]? = some r ∧ List.Forall₂ (fun t x => TargetReturns S g feeds final t x) (targetsOf e pre) r := by
  refine ⟨(calls_state h).1, ?_⟩
  -- the state before call `k`
  have key : ∀ k, k ≤ cs.length → ∃ sk rk, calls O S fuel (start g0 env w) (cs.take k) = some (.ok (sk, rk)) := fun k _ => by
    rw [← List.take_append_drop k cs] at h
    obtain ⟨s1, r1, _, h1, _⟩ := calls_append.1 h
    exact ⟨s1, r1, h1⟩
  let st : Nat → Session Op V W := fun k => match calls O S fuel (start g0 env w) (cs.take k) with
    | some (.ok (s, _)) => s
    | _ => s'
  have hst : ∀ {k s r}, calls O S fuel (start g0 env w) (cs.take k) = some (.ok (s, r)) → st k = s := fun hk => by simp only [st, hk]
  refine ⟨fun k => (st k).env, fun k => (st k).world, ?_, ?_, ?_, ?_, fun k c hk hc => ?_, fun pre e post hcs => ?_⟩
  · dsimp only; rw [hst (k := 0) (s := start g0 env w) (r := []) rfl]; rfl
  · dsimp only; rw [hst (k := 0) (s := start g0 env w) (r := []) rfl]; rfl
  · dsimp only; rw [hst (by rw [List.take_length]; exact h)]
  · dsimp only; rw [hst (by rw [List.take_length]; exact h)]
  · obtain ⟨hlt, rfl⟩ := List.getElem?_eq_some_iff.1 hk
    obtain ⟨s1, r1, h1⟩ := key k hlt.le
    obtain ⟨s2, r2, h2⟩ := key (k + 1) hlt
    dsimp only
    rw [hst h1, hst h2]
    rw [List.take_add_one, hk, Option.toList_some] at h2
    obtain ⟨s1', _, _, e1, h3, _⟩ := calls_append.1 h2
    rw [h1] at e1
    cases e1
    obtain ⟨s3, r3, _, h4, h5, _⟩ := calls_cons.1 h3
    cases h5
    generalize cs[k] = c at *
    cases c with
    | run e => exact absurd rfl (hc e)
    | build c =>
      simp only [call] at h4
      split at h4 <;> cases h4
      exact ⟨rfl, rfl⟩
    | _ => cases h4; exact ⟨rfl, rfl⟩
  · subst hcs
    obtain ⟨s1, rs1, r, rs2, h1, hl, he, h2, rfl⟩ := run_at h
    obtain ⟨_, ⟨ids, hb⟩, hev⟩ := calls_state h1
    obtain ⟨ht, hf⟩ := hev e
    rw [show ((start g0 env w).evaluators e).targets = [] from rfl, List.nil_append] at ht
    rw [show ((start g0 env w).evaluators e).feeds = [] from rfl] at hf
    rw [ht, hf] at he
    have hg1 := hg.all hb
    have ht' := hh pre e post _ _ rfl hb
    obtain ⟨hnd, hneed, _⟩ := C04_needed_exactly_once O S _ fuel _ _ _ _ r hg1 ht' he
    obtain ⟨fin, _, _, _, _, henv, hwd, hx, hret, _⟩ := eval_ok hg1.wf ht' he
    have hs1 : st pre.length = s1 := hst (r := rs1) (by rw [List.take_left']; exacts [h1, rfl])
    have hs2 : st (pre.length + 1) = { s1 with env := r.env, world := r.world } := hst (r := rs1 ++ [r.results]) (by
      rw [List.take_add_one, List.take_left' rfl, List.getElem?_append_right le_rfl, Nat.sub_self]
      refine calls_append.2 ⟨s1, rs1, [r.results], h1, ?_, rfl⟩
      refine calls_cons.2 ⟨_, _, [], ?_, rfl, rfl⟩
      simp only [call, ht, hf, he])
    refine ⟨s1.graph, ids, _, r.log, toExec fin, r.results, hb, feedsAre_after e pre, by dsimp only; rw [hs1]; exact hx, hnd, hneed, ?_, ?_, ?_, hret⟩
    · dsimp only; rw [hs2]; exact henv.symm
    · dsimp only; rw [hs2]; exact hwd.symm
    · rw [← hl, List.getElem?_append_right le_rfl, Nat.sub_self]; rfl

/-- All runs only need ops that are functions of their inputs and do not write to variables. -/
def RunsPure (O : Ops Op) (S : Sem Op V E W) (f : Op → List (OpInput V) → Option (Except E (List V))) (g0 : Graph Op) (cs : List (Call Op V)) : Prop :=
  ∀ pre e post g ids, cs = pre ++ .run e :: post → g0.execAll O (built pre) = .ok (g, ids) →
    NeededPure S g (targetsOf e pre) f ∧ NeededReadOnly g (targetsOf e pre)

theorem HandlesExist.left {O : Ops Op} {g0 : Graph Op} {cs ds : List (Call Op V)} (h : HandlesExist O g0 (cs ++ ds)) : HandlesExist O g0 cs :=
  fun pre e post g ids hc => h pre e (post ++ ds) g ids (by rw [hc]; simp)

theorem RunsPure.left {O : Ops Op} {S : Sem Op V E W} {f : Op → List (OpInput V) → Option (Except E (List V))} {g0 : Graph Op} {cs ds : List (Call Op V)}
    (h : RunsPure O S f g0 (cs ++ ds)) : RunsPure O S f g0 cs :=
  fun pre e post g ids hc => h pre e (post ++ ds) g ids (by rw [hc]; simp)

/-- Pure sessions do not change variables. -/
private theorem env_kept {O : Ops Op} {S : Sem Op V E W} {f : Op → List (OpInput V) → Option (Except E (List V))} {fuel : Nat} {g0 : Graph Op} {env : List V} {w : W} (hg : Reachable O g0) :
    ∀ (cs : List (Call Op V)) {s' : Session Op V W} {rs : List (List (Except E V))}, HandlesExist O g0 cs → RunsPure O S f g0 cs →
      calls O S fuel (start g0 env w) cs = some (.ok (s', rs)) → s'.env = env := by
  intro cs
  induction cs using List.reverseRecOn with
  | nil => intro s' rs _ _ h; cases h; rfl
  | append_singleton cs c ih =>
    intro s' rs hh hp h
    obtain ⟨s1, rs1, rs2, h1, h2, rfl⟩ := calls_append.1 h
    obtain ⟨s2, r, _, h3, h4, -⟩ := calls_cons.1 h2
    cases h4
    have e1 := ih hh.left hp.left h1
    rw [← e1]
    cases c with
    | run e =>
      obtain ⟨_, ⟨ids, hb⟩, hev⟩ := calls_state h1
      obtain ⟨ht, -⟩ := hev e
      rw [show ((start g0 env w).evaluators e).targets = [] from rfl, List.nil_append] at ht
      simp only [call] at h3
      split at h3 <;> cases h3
      rename_i r hr
      rw [ht] at hr
      obtain ⟨hpu, hro⟩ := hp cs e [] _ _ rfl hb
      exact (C06_results_are_meanings O S _ fuel _ _ _ _ r f (hg.all hb) (hh cs e [] _ _ rfl hb) hpu hro hr).2
    | build c =>
      simp only [call] at h3
      split at h3 <;> cases h3
      rfl
    | _ => cases h3; rfl

/-- **C75** If no needed op writes to variables or depends on the world: each run returns, for the tensors pushed to this evaluator so far, in this order, their mathematical meanings for
the feeds of this evaluator (those of the last feeder set, and those fed since then). Earlier runs, other evaluators and tensors built in the meantime make no difference. -/
theorem C75_results (O : Ops Op) (S : Sem Op V E W) (f : Op → List (OpInput V) → Option (Except E (List V))) (fuel : Nat) (g0 : Graph Op) (env : List V) (w : W) (cs : List (Call Op V))
    (s' : Session Op V W) (rs : List (List (Except E V))) (hg : Reachable O g0) (hh : HandlesExist O g0 cs) (hp : RunsPure O S f g0 cs)
    (h : calls O S fuel (start g0 env w) cs = some (.ok (s', rs))) :
    s'.env = env ∧ ∀ pre e post feeds, cs = pre ++ .run e :: post → FeedsAre e pre feeds → ∃ g ids r, g0.execAll O (built pre) = .ok (g, ids) ∧
      rs[pre.length]? = some r ∧ List.Forall₂ (fun t x => TargetMeans f S.shapeOf g feeds env t x) (targetsOf e pre) r := by
  refine ⟨env_kept hg cs hh hp h, fun pre e post feeds hcs hfs => ?_⟩
  subst hcs
  obtain ⟨s1, rs1, r, rs2, h1, hl, he, h2, rfl⟩ := run_at h
  obtain ⟨_, ⟨ids, hb⟩, hev⟩ := calls_state h1
  obtain ⟨ht, hf⟩ := hev e
  rw [show ((start g0 env w).evaluators e).targets = [] from rfl, List.nil_append] at ht
  rw [show ((start g0 env w).evaluators e).feeds = [] from rfl, ← feedsAre_unique hfs] at hf
  rw [ht, hf, env_kept hg pre hh.left hp.left h1] at he
  obtain ⟨hpu, hro⟩ := hp pre e post _ _ rfl hb
  refine ⟨s1.graph, ids, r.results, hb, ?_, (C06_results_are_meanings O S _ fuel _ _ _ _ r f (hg.all hb) (hh pre e post _ _ rfl hb) hpu hro he).1⟩
  rw [← hl, List.getElem?_append_right le_rfl, Nat.sub_self]; rfl

/-- **C75** Such a session does not panic if the builder calls succeed, each run finds an acyclic graph and targets with a meaning, and no op tensor was pushed twice to the evaluator
before a run. -/
theorem C75_total_partial (O : Ops Op) (S : Sem Op V E W) (f : Op → List (OpInput V) → Option (Except E (List V))) (g0 : Graph Op) (env : List V) (w : W) (cs : List (Call Op V))
    (hg : Reachable O g0) (hh : HandlesExist O g0 cs) (hp : RunsPure O S f g0 cs) (hb : ∃ g ids, g0.execAll O (built cs) = .ok (g, ids))
    (hr : ∀ pre e post g ids feeds, cs = pre ++ .run e :: post → g0.execAll O (built pre) = .ok (g, ids) → FeedsAre e pre feeds →
      Acyclic g ∧ (∀ a t b c, targetsOf e pre = a ++ t :: b ++ t :: c → ¬ IsOp g t) ∧ ∃ r, List.Forall₂ (fun t x => TargetMeans f S.shapeOf g feeds env t x) (targetsOf e pre) r) :
    ∃ fuel0, ∀ fuel, fuel0 ≤ fuel → ∃ s' rs, calls O S fuel (start g0 env w) cs = some (.ok (s', rs)) := by
  induction cs using List.reverseRecOn with
  | nil => exact ⟨0, fun fuel _ => ⟨_, _, rfl⟩⟩
  | append_singleton cs c ih =>
    obtain ⟨g2, ids2, hb⟩ := hb
    have hbb : built (cs ++ [c]) = built cs ++ built [c] := by simp [built]
    rw [hbb] at hb
    obtain ⟨g1, i1, i2, hb1, hb2, -⟩ := execAll_append.1 hb
    obtain ⟨fuel0, hf⟩ := ih hh.left hp.left ⟨g1, i1, hb1⟩ fun pre e post g ids feeds hc => hr pre e (post ++ [c]) g ids feeds (by rw [hc]; simp)
    by_cases hc : ∃ e, c = .run e
    · obtain ⟨e, rfl⟩ := hc
      obtain ⟨hac, hnd, r, hm⟩ := hr cs e [] g1 i1 _ rfl hb1 (feedsAre_after e cs)
      have ht := hh cs e [] g1 i1 rfl hb1
      obtain ⟨hpu, hro⟩ := hp cs e [] g1 i1 rfl hb1
      refine ⟨max fuel0 (2 * ((targetsOf e cs).length + (g1.nodes.map (fun n => n.incoming.length)).sum)), fun fuel hle => ?_⟩
      obtain ⟨s1, rs1, h1⟩ := hf fuel ((le_max_left _ _).trans hle)
      obtain ⟨_, ⟨ids, hb'⟩, hev⟩ := calls_state h1
      obtain ⟨ht1, hf1⟩ := hev e
      rw [show ((start g0 env w).graph) = g0 from rfl, hb1] at hb'
      cases hb'
      rw [show ((start g0 env w).evaluators e).targets = [] from rfl, List.nil_append] at ht1
      rw [show ((start g0 env w).evaluators e).feeds = [] from rfl] at hf1
      have hg1 := hg.all hb1
      obtain ⟨x, hx⟩ := C03_terminates O S s1.graph (targetsOf e cs) (feedsAfter e [] cs) env s1.world hg1 ht hac
      obtain ⟨fuel1, h2⟩ := C06_total O S s1.graph (targetsOf e cs) (feedsAfter e [] cs) env s1.world f r hg1 hac ht hpu hro (fun a t b c h => hnd a t b c h) hm
      obtain ⟨res, h3, -⟩ := h2 (max fuel1 _) (le_max_left _ _)
      rw [hx _ (le_max_right _ _)] at h3
      cases h3
      have : ∃ s2 r, call O S fuel s1 (.run e) = some (.ok (s2, r)) := by
        simp only [call, ht1, hf1, env_kept hg cs hh.left hp.left h1, hx fuel ((le_max_right _ _).trans hle)]
        exact ⟨_, _, rfl⟩
      obtain ⟨s2, r, h2⟩ := this
      exact ⟨_, _, calls_append.2 ⟨s1, rs1, _, h1, calls_cons.2 ⟨_, _, [], h2, rfl, rfl⟩, rfl⟩⟩
    · refine ⟨fuel0, fun fuel hle => ?_⟩
      obtain ⟨s1, rs1, h1⟩ := hf fuel hle
      obtain ⟨_, ⟨ids, hb'⟩, -⟩ := calls_state h1
      rw [show ((start g0 env w).graph) = g0 from rfl, hb1] at hb'
      cases hb'
      have : ∃ s2 r, call O S fuel s1 c = some (.ok (s2, r)) := by
        cases c with
        | run e => exact absurd ⟨e, rfl⟩ hc
        | build c =>
          obtain ⟨g', t, _, h2, -, -⟩ := execAll_cons.1 (show s1.graph.execAll O (c :: []) = .ok (g2, i2) from hb2)
          simp only [call, h2]; exact ⟨_, _, rfl⟩
        | _ => exact ⟨_, _, rfl⟩
      obtain ⟨s2, r, h2⟩ := this
      exact ⟨_, _, calls_append.2 ⟨s1, rs1, _, h1, calls_cons.2 ⟨_, _, [], h2, rfl, rfl⟩, rfl⟩⟩

/-- **C75** Running an evaluator again, after any calls that neither push tensors or feeds to it nor set its feeder, and that do not use `depends_on`, returns the same results. -/
theorem C75_again (O : Ops Op) (S : Sem Op V E W) (f : Op → List (OpInput V) → Option (Except E (List V))) (fuel : Nat) (g0 : Graph Op) (env : List V) (w : W)
    (pre between post : List (Call Op V)) (e : Nat) (s' : Session Op V W) (rs : List (List (Except E V))) (hg : Reachable O g0)
    (hh : HandlesExist O g0 (pre ++ .run e :: between ++ .run e :: post)) (hp : RunsPure O S f g0 (pre ++ .run e :: between ++ .run e :: post))
    (hno : ∀ c ∈ between, (∀ t, c ≠ .push e t) ∧ (∀ ts, c ≠ .extend e ts) ∧ (∀ k v, c ≠ .feed e k v) ∧ (∀ fs, c ≠ .setFeeder e fs) ∧ ∀ x ds, c ≠ .build (.dependsOn x ds))
    (h : calls O S fuel (start g0 env w) (pre ++ .run e :: between ++ .run e :: post) = some (.ok (s', rs))) :
    ∃ r, rs[pre.length]? = some r ∧ rs[pre.length + 1 + between.length]? = some r := by
  have hT : targetsOf e (pre ++ .run e :: between) = targetsOf e pre := by
    simp only [targetsOf, List.flatMap_append, List.flatMap_cons, pushedBy, List.nil_append, List.append_right_eq_self, List.flatMap_eq_nil_iff]
    intro c hc
    obtain ⟨h1, h2, -⟩ := hno c hc
    cases c with
    | push e' t => dsimp only; split; exacts [absurd (by subst e'; rfl) (h1 t), rfl]
    | extend e' t => dsimp only; split; exacts [absurd (by subst e'; rfl) (h2 t), rfl]
    | _ => rfl
  have hF : feedsAfter e [] (pre ++ .run e :: between) = feedsAfter e [] pre := by
    have : ∀ (cs ds : List (Call Op V)) (fs : List (Feed V)), feedsAfter e fs (cs ++ ds) = feedsAfter e (feedsAfter e fs cs) ds := fun cs ds => by
      induction cs with
      | nil => intro fs; rfl
      | cons c cs ih => intro fs; rw [List.cons_append, feedsAfter_cons, ih, feedsAfter_cons e fs c cs]
    rw [this, feedsAfter_noFeeder]
    · simp only [List.flatMap_cons, fedBy, List.nil_append, List.append_right_eq_self, List.flatMap_eq_nil_iff]
      intro c hc
      obtain ⟨-, -, h3, -⟩ := hno c hc
      cases c with
      | feed e' k v => dsimp only; split; exacts [absurd (by subst e'; rfl) (h3 k v), rfl]
      | _ => rfl
    · intro fs hm
      rcases List.mem_cons.1 hm with h' | h'
      · cases h'
      · exact (hno _ h').2.2.2.1 fs rfl
  have hr := (C75_results O S f fuel g0 env w _ s' rs hg hh hp h).2
  obtain ⟨g1, i1, r1, hb1, hr1, hm1⟩ := hr pre e (between ++ .run e :: post) _ (by simp) (feedsAre_after e pre)
  obtain ⟨g2, i2, r2, hb2, hr2, hm2⟩ := hr (pre ++ .run e :: between) e post _ rfl (feedsAre_after e _)
  rw [hT, hF] at hm2
  have hbb : built (pre ++ .run e :: between) = built pre ++ built between := by simp [built]
  rw [hbb] at hb2
  obtain ⟨g1', j1, j2, hb1', hgrow, -⟩ := execAll_append.1 hb2
  rw [hb1] at hb1'
  cases hb1'
  have hext : Extends g1 g2 := by
    intro id n hn
    refine (C01_handles_stable O g1 g2 _ j2 hgrow).1 id n hn ?_
    have : dependsOnTargets (built between) = [] := by
      clear hgrow hb2 hbb hr hT hF h hh hp hm2 hr2
      induction between with
      | nil => rfl
      | cons c cs ih =>
        have := ih fun c hc => hno c (List.mem_cons_of_mem _ hc)
        have hc := (hno c (List.mem_cons_self ..)).2.2.2.2
        rw [built_cons]
        cases c with
        | build c =>
          cases c with
          | dependsOn x ds => exact absurd rfl (hc x ds)
          | _ => simpa [built, dependsOnTargets] using this
        | _ => simpa [built] using this
    simp [this]
  have : r1 = r2 := by
    have hcl := (hg.all hb1).wf.closed
    clear hr1 hr2
    generalize targetsOf e pre = ts at hm1 hm2
    induction hm1 generalizing r2 with
    | nil => cases hm2; rfl
    | cons a _ ih =>
      cases hm2 with
      | cons b hm2 => rw [targetMeans_unique (hext.targetMeans hcl a) b, ih _ hm2]
  subst this
  exact ⟨r1, hr1, by rw [← hr2]; congr 1; simp; omega⟩

/-- **C75** violated: a run does not take the targets out of the evaluator. So if an op tensor is pushed again, say before a second run, the session never gets past the next run of
this evaluator. -/
theorem C75_push_again_violated (O : Ops Op) (S : Sem Op V E W) (fuel : Nat) (g0 : Graph Op) (env : List V) (w : W) (pre post : List (Call Op V)) (e t : Nat) (a b c : List Nat)
    (s' : Session Op V W) (rs : List (List (Except E V))) (hg : Reachable O g0) (hh : HandlesExist O g0 (pre ++ .run e :: post)) (htwice : targetsOf e pre = a ++ t :: b ++ t :: c)
    (hop : ∀ g ids, g0.execAll O (built pre) = .ok (g, ids) → IsOp g t) :
    calls O S fuel (start g0 env w) (pre ++ .run e :: post) ≠ some (.ok (s', rs)) := by
  intro h
  obtain ⟨s1, rs1, r, rs2, h1, hl, he, h2, rfl⟩ := run_at h
  obtain ⟨_, ⟨ids, hb⟩, hev⟩ := calls_state h1
  have ht := (hev e).1
  rw [show ((start g0 env w).evaluators e).targets = [] from rfl, List.nil_append] at ht
  have hex := hh pre e post _ _ rfl hb
  rw [htwice] at ht hex
  rw [ht] at he
  exact C07_repeated_target_violated O S s1.graph fuel _ _ _ a b c t (hg.all hb) hex (hop _ _ hb) r he

/-- Two evaluators: the first is asked for `v + 5`; then a placeholder and a tensor are built, the second is asked for `(v + 5) + p` and fed twice (the first feed counts) and the first
one is run again. -/
def ssCalls : List (Call DemoOp Int) :=
  [.build (.var 0), .build (.build {} (.num 5)), .build (.build { inNodes := [⟨0, false, 0⟩, ⟨1, false, 0⟩] } .add), .push 0 2, .run 0,
   .build (.placeholder "p" []), .build (.build { inNodes := [⟨2, false, 0⟩, ⟨5, false, 0⟩] } .add), .extend 1 [6, 0], .feed 1 (.name "x") 3, .setFeeder 1 [⟨.name "p", 7⟩],
   .feed 1 (.name "p") 8, .run 1, .run 0]

private theorem ss_runs {pre post : List (Call DemoOp Int)} {e : Nat} (h : ssCalls = pre ++ .run e :: post) :
    (e = 0 ∧ pre = ssCalls.take 4) ∨ (e = 1 ∧ pre = ssCalls.take 11) ∨ (e = 0 ∧ pre = ssCalls.take 12) := by
  have h1 : ssCalls[pre.length]? = some (.run e) := by rw [h]; simp
  have h2 : pre = ssCalls.take pre.length := by rw [h]; simp
  have h3 : pre.length < 13 := (List.getElem?_eq_some_iff.1 h1).1
  generalize pre.length = k at *
  subst h2
  interval_cases k <;> simp [ssCalls] at h1 <;> subst h1 <;> simp

theorem ss_handles : HandlesExist demoOps Graph.empty ssCalls := by
  intro pre e post g ids h hb
  rcases ss_runs h with ⟨rfl, rfl⟩ | ⟨rfl, rfl⟩ | ⟨rfl, rfl⟩ <;> cases hb <;> decide

theorem ss_pure : RunsPure demoOps demoSem demoFn Graph.empty ssCalls := by
  intro pre e post g ids h hb
  refine ⟨fun a n _ _ w xs => by cases w; rfl, ?_⟩
  rintro a vid - ⟨n, hn, i, hi, hm, _⟩
  have : ∀ n ∈ g.nodes, ∀ i ∈ n.incoming, i.allowMut = false := by
    rcases ss_runs h with ⟨rfl, rfl⟩ | ⟨rfl, rfl⟩ | ⟨rfl, rfl⟩ <;> cases hb <;> decide
  rw [this n (List.mem_of_getElem? hn) i hi] at hm
  cases hm

-- This session returns `6` from the first run, `13` and the variable from the second, and `6` from the third.
example : ∃ s', calls demoOps demoSem 100 (start Graph.empty [1] ()) ssCalls =
    some (.ok (s', [[], [], [], [], [.ok 6], [], [], [], [], [], [], [.ok 13, .ok 1], [.ok 6]])) := ⟨_, rfl⟩


-- It meets the hypotheses of `C75_sequence`, `C75_results` and `C75_total_partial`.
example : Reachable demoOps (Graph.empty : Graph DemoOp) ∧ HandlesExist demoOps Graph.empty ssCalls ∧ RunsPure demoOps demoSem demoFn Graph.empty ssCalls ∧
    (∃ g ids, (Graph.empty : Graph DemoOp).execAll demoOps (built ssCalls) = .ok (g, ids)) ∧
    ∀ pre e post g ids feeds, ssCalls = pre ++ .run e :: post → (Graph.empty : Graph DemoOp).execAll demoOps (built pre) = .ok (g, ids) → FeedsAre e pre feeds →
      Acyclic g ∧ (∀ a t b c, targetsOf e pre = a ++ t :: b ++ t :: c → ¬ IsOp g t) ∧
      ∃ r, List.Forall₂ (fun t x => TargetMeans demoFn demoSem.shapeOf g feeds [1] t x) (targetsOf e pre) r := by
  refine ⟨.init, ss_handles, ss_pure, ⟨_, _, rfl⟩, fun pre e post g ids feeds hc hb hf => ⟨(C02_ranks_and_acyclic demoOps _ _ _ hb fun x deps h => ?_).2, fun a t b c ht => ?_, ?_⟩⟩
  · rcases ss_runs hc with ⟨rfl, rfl⟩ | ⟨rfl, rfl⟩ | ⟨rfl, rfl⟩ <;> simp [ssCalls, built] at h
  · have h0 : (targetsOf e pre).Nodup := by rcases ss_runs hc with ⟨rfl, rfl⟩ | ⟨rfl, rfl⟩ | ⟨rfl, rfl⟩ <;> decide
    rw [ht] at h0
    simp [List.nodup_append] at h0
  · obtain ⟨g', ids', r, hb', -, hm⟩ := (C75_results demoOps demoSem demoFn 100 Graph.empty [1] () ssCalls _ _ .init ss_handles ss_pure rfl).2 pre e post feeds hc hf
    rw [hb] at hb'
    cases hb'
    exact ⟨r, hm⟩

-- The first evaluator is run again at the end, with other calls in between, as in `C75_again`.
example : ssCalls = ssCalls.take 4 ++ .run 0 :: (ssCalls.drop 5).take 7 ++ .run 0 :: [] ∧
    ∀ c ∈ (ssCalls.drop 5).take 7, (∀ t, c ≠ .push 0 t) ∧ (∀ ts, c ≠ .extend 0 ts) ∧ (∀ k v, c ≠ .feed 0 k v) ∧ (∀ fs, c ≠ .setFeeder 0 fs) ∧ ∀ x ds, c ≠ .build (.dependsOn x ds) := by
  refine ⟨rfl, ?_⟩
  intro c hc
  simp only [ssCalls, List.drop_succ_cons, List.drop_zero, List.take_succ_cons, List.take_zero, List.mem_cons, List.not_mem_nil, or_false] at hc
  rcases hc with rfl | rfl | rfl | rfl | rfl | rfl | rfl <;> simp

/-- `v + 5` is pushed and run, and then pushed and run again. -/
def ssAgain : List (Call DemoOp Int) :=
  [.build (.var 0), .build (.build {} (.num 5)), .build (.build { inNodes := [⟨0, false, 0⟩, ⟨1, false, 0⟩] } .add), .push 0 2, .run 0, .push 0 2]

-- As in `C75_push_again_violated`.
example : HandlesExist demoOps (Graph.empty : Graph DemoOp) (ssAgain ++ .run 0 :: []) ∧ targetsOf 0 ssAgain = [] ++ 2 :: [] ++ 2 :: [] ∧
    ∀ g ids, (Graph.empty : Graph DemoOp).execAll demoOps (built ssAgain) = .ok (g, ids) → IsOp g 2 := by
  refine ⟨fun pre e post g ids h hb t ht => ?_, rfl, fun g ids h => by cases h; exact ⟨_, rfl, rfl, rfl⟩⟩
  have h1 : (ssAgain ++ Call.run 0 :: [])[pre.length]? = some (.run e) := by rw [h]; simp
  have h2 : pre = (ssAgain ++ Call.run 0 :: []).take pre.length := by rw [h]; simp
  have h3 : pre.length < 7 := (List.getElem?_eq_some_iff.1 h1).1
  generalize pre.length = k at *
  subst h2
  interval_cases k <;> simp [ssAgain] at h1 <;> subst h1 <;> cases hb <;> revert t <;> decide

end Verif.Props
