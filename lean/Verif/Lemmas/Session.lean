import Verif.Spec.Session
import Verif.Lemmas.GraphHistory

/-! # Lemmas about sessions with evaluators -/

namespace Verif.Session
open Verif Verif.Spec Verif.Graph
variable {Op V E W : Type} {O : Ops Op} {S : Sem Op V E W} {fuel : Nat}

theorem calls_cons {s s' : Session Op V W} {c : Call Op V} {cs : List (Call Op V)} {rs : List (List (Except E V))} :
    calls O S fuel s (c :: cs) = some (.ok (s', rs)) ↔
      ∃ s1 r rs', call O S fuel s c = some (.ok (s1, r)) ∧ calls O S fuel s1 cs = some (.ok (s', rs')) ∧ rs = r :: rs' := by
  rw [calls]
  cases h : call O S fuel s c with
  | none => simp
  | some x =>
    match x with
    | .error p => simp
    | .ok (s1, r) =>
      dsimp only
      cases h2 : calls O S fuel s1 cs with
      | none => simp [h2]
      | some y =>
        match y with
        | .error p => simp [h2]
        | .ok (s2, rs2) =>
          simp only [Option.some.injEq, Except.ok.injEq, Prod.mk.injEq]
          constructor
          · rintro ⟨rfl, rfl⟩; exact ⟨_, _, _, ⟨rfl, rfl⟩, h2, rfl⟩
          · rintro ⟨_, _, rs', ⟨rfl, rfl⟩, h3, rfl⟩
            rw [h2] at h3
            cases h3; exact ⟨rfl, rfl⟩

/-- The feeds after further calls. -/
def feedsAfter (e : Nat) : List (Feed V) → List (Call Op V) → List (Feed V)
  | fs, [] => fs
  | fs, .feed e' key v :: cs => feedsAfter e (if e' = e then fs ++ [⟨key, v⟩] else fs) cs
  | fs, .setFeeder e' fs' :: cs => feedsAfter e (if e' = e then fs' else fs) cs
  | fs, _ :: cs => feedsAfter e fs cs

theorem call_evaluator {s s' : Session Op V W} {c : Call Op V} {r : List (Except E V)} (h : call O S fuel s c = some (.ok (s', r))) (e : Nat) :
    (s'.evaluators e).targets = (s.evaluators e).targets ++ pushedBy e c ∧ (s'.evaluators e).feeds = feedsAfter e (s.evaluators e).feeds [c] := by
  cases c with
  | push e' t => cases h; by_cases he : e' = e <;> simp [update, pushedBy, feedsAfter, he, eq_comm (a := e)]
  | extend e' ts => cases h; by_cases he : e' = e <;> simp [update, pushedBy, feedsAfter, he, eq_comm (a := e)]
  | feed e' k v => cases h; by_cases he : e' = e <;> simp [update, pushedBy, feedsAfter, he, eq_comm (a := e)]
  | setFeeder e' fs => cases h; by_cases he : e' = e <;> simp [update, pushedBy, feedsAfter, he, eq_comm (a := e)]
  | run e' =>
    simp only [call] at h
    split at h <;> cases h
    simp [pushedBy, feedsAfter]
  | build c =>
    simp only [call] at h
    split at h <;> cases h
    simp [pushedBy, feedsAfter]

theorem feedsAfter_cons (e : Nat) (fs : List (Feed V)) (c : Call Op V) (cs : List (Call Op V)) :
    feedsAfter e fs (c :: cs) = feedsAfter e (feedsAfter e fs [c]) cs := by
  cases c <;> rfl

theorem feedsAfter_noFeeder {e : Nat} : ∀ {cs : List (Call Op V)} (fs : List (Feed V)), NoFeeder e cs → feedsAfter e fs cs = fs ++ cs.flatMap (fedBy e)
  | [], fs, _ => by simp [feedsAfter]
  | c :: cs, fs, h => by
    have hc : NoFeeder e cs := fun fs hm => h fs (List.mem_cons_of_mem _ hm)
    rw [feedsAfter_cons, feedsAfter_noFeeder _ hc]
    cases c with
    | feed e' k v => by_cases he : e' = e <;> simp [feedsAfter, fedBy, he]
    | setFeeder e' fs' =>
      by_cases he : e' = e
      · subst he; exact absurd (List.mem_cons_self ..) (h fs')
      · simp [feedsAfter, fedBy, he]
    | _ => simp [feedsAfter, fedBy]

theorem feedsAfter_are (e : Nat) : ∀ (cs : List (Call Op V)) (fs : List (Feed V)),
    (NoFeeder e cs ∧ feedsAfter e fs cs = fs ++ cs.flatMap (fedBy e)) ∨
    ∃ before fs0 since, cs = before ++ .setFeeder e fs0 :: since ∧ NoFeeder e since ∧ feedsAfter e fs cs = fs0 ++ since.flatMap (fedBy e)
  | [], fs => .inl ⟨by simp [NoFeeder], by simp [feedsAfter]⟩
  | c :: cs, fs => by
    rcases feedsAfter_are e cs (feedsAfter e fs [c]) with ⟨hn, he⟩ | ⟨b, f0, since, rfl, hn, he⟩
    · by_cases hc : ∃ f0, c = .setFeeder e f0
      · obtain ⟨f0, rfl⟩ := hc
        refine .inr ⟨[], f0, cs, rfl, hn, ?_⟩
        rw [feedsAfter_cons, he]; simp [feedsAfter]
      · have hn' : NoFeeder e (c :: cs) := fun f0 hm => by
          rcases List.mem_cons.1 hm with h | h
          · exact hc ⟨f0, h.symm⟩
          · exact hn f0 h
        exact .inl ⟨hn', feedsAfter_noFeeder _ hn'⟩
    · exact .inr ⟨c :: b, f0, since, rfl, hn, by rw [feedsAfter_cons, he]⟩

theorem feedsAre_after (e : Nat) (cs : List (Call Op V)) : FeedsAre e cs (feedsAfter e [] cs) := by
  rcases feedsAfter_are e cs [] with ⟨h, he⟩ | h
  · exact .inl ⟨h, by simpa using he⟩
  · exact .inr h

theorem feedsAre_unique {e : Nat} {cs : List (Call Op V)} {fs : List (Feed V)} (h : FeedsAre e cs fs) : fs = feedsAfter e [] cs := by
  rcases h with ⟨h, rfl⟩ | ⟨b, f0, since, rfl, hn, rfl⟩
  · rw [feedsAfter_noFeeder _ h]; rfl
  · have : ∀ (b : List (Call Op V)) (fs : List (Feed V)), feedsAfter e fs (b ++ .setFeeder e f0 :: since) = f0 ++ since.flatMap (fedBy e) := by
      intro b
      induction b with
      | nil => intro fs; rw [List.nil_append, feedsAfter_cons, feedsAfter_noFeeder _ hn]; simp [feedsAfter]
      | cons c b ih => intro fs; rw [List.cons_append, feedsAfter_cons, ih]
    rw [this]

theorem call_graph {s s' : Session Op V W} {c : Call Op V} {r : List (Except E V)} (h : call O S fuel s c = some (.ok (s', r))) :
    ∃ ids, s.graph.execAll O (built [c]) = .ok (s'.graph, ids) := by
  cases c with
  | build c =>
    simp only [call] at h
    split at h <;> cases h
    rename_i g t hg
    exact ⟨[t], by simp [built, execAll, hg, bind, Except.bind]⟩
  | run e =>
    simp only [call] at h
    split at h <;> cases h
    exact ⟨[], rfl⟩
  | _ => cases h; exact ⟨[], rfl⟩

theorem built_cons (c : Call Op V) (cs : List (Call Op V)) : built (c :: cs) = built [c] ++ built cs := by simp [built]

theorem calls_state {cs : List (Call Op V)} : ∀ {s s' : Session Op V W} {rs : List (List (Except E V))}, calls O S fuel s cs = some (.ok (s', rs)) →
    rs.length = cs.length ∧ (∃ ids, s.graph.execAll O (built cs) = .ok (s'.graph, ids)) ∧
      ∀ e, (s'.evaluators e).targets = (s.evaluators e).targets ++ targetsOf e cs ∧ (s'.evaluators e).feeds = feedsAfter e (s.evaluators e).feeds cs := by
  induction cs with
  | nil => intro s s' rs h; cases h; exact ⟨rfl, ⟨[], rfl⟩, fun e => by simp [targetsOf, feedsAfter]⟩
  | cons c cs ih =>
    intro s s' rs h
    obtain ⟨s1, r, rs', h1, h2, rfl⟩ := calls_cons.1 h
    obtain ⟨hl, ⟨ids, hb⟩, he⟩ := ih h2
    obtain ⟨ids1, hb1⟩ := call_graph h1
    refine ⟨by simp [hl], ⟨ids1 ++ ids, ?_⟩, fun e => ?_⟩
    · rw [built_cons]; exact execAll_append.2 ⟨_, _, _, hb1, hb, rfl⟩
    · obtain ⟨a, b⟩ := call_evaluator h1 e
      obtain ⟨a', b'⟩ := he e
      rw [a', b', a, b, ← feedsAfter_cons]
      exact ⟨by simp [targetsOf], rfl⟩

theorem calls_append {cs ds : List (Call Op V)} : ∀ {s s' : Session Op V W} {rs : List (List (Except E V))},
    calls O S fuel s (cs ++ ds) = some (.ok (s', rs)) ↔
      ∃ s1 rs1 rs2, calls O S fuel s cs = some (.ok (s1, rs1)) ∧ calls O S fuel s1 ds = some (.ok (s', rs2)) ∧ rs = rs1 ++ rs2 := by
  induction cs with
  | nil =>
    intro s s' rs
    constructor
    · intro h; exact ⟨s, [], rs, rfl, h, rfl⟩
    · rintro ⟨s1, rs1, rs2, h1, h2, rfl⟩; cases h1; exact h2
  | cons c cs ih =>
    intro s s' rs
    rw [List.cons_append, calls_cons]
    constructor
    · rintro ⟨s1, r, rs', h1, h2, rfl⟩
      obtain ⟨s2, a, b, h3, h4, rfl⟩ := ih.1 h2
      exact ⟨s2, r :: a, b, calls_cons.2 ⟨s1, r, a, h1, h3, rfl⟩, h4, rfl⟩
    · rintro ⟨s2, a, b, h3, h4, rfl⟩
      obtain ⟨s1, r, a', h1, h5, rfl⟩ := calls_cons.1 h3
      exact ⟨s1, r, a' ++ b, h1, ih.2 ⟨s2, a', b, h5, h4, rfl⟩, rfl⟩

/-- A run within a session. -/
theorem run_at {pre post : List (Call Op V)} {e : Nat} {s s' : Session Op V W} {rs : List (List (Except E V))}
    (h : calls O S fuel s (pre ++ .run e :: post) = some (.ok (s', rs))) :
    ∃ s1 rs1 r rs2, calls O S fuel s pre = some (.ok (s1, rs1)) ∧ rs1.length = pre.length ∧
      Eval.eval S s1.graph fuel (s1.evaluators e).targets (s1.evaluators e).feeds s1.env s1.world = some (.ok r) ∧
      calls O S fuel { s1 with env := r.env, world := r.world } post = some (.ok (s', rs2)) ∧ rs = rs1 ++ r.results :: rs2 := by
  obtain ⟨s1, rs1, rs2, h1, h2, rfl⟩ := calls_append.1 h
  obtain ⟨s2, r, rs3, h3, h4, rfl⟩ := calls_cons.1 h2
  simp only [call] at h3
  split at h3 <;> cases h3
  rename_i r hr
  exact ⟨s1, rs1, r, rs3, h1, (calls_state h1).1, hr, h4, rfl⟩

end Verif.Session
