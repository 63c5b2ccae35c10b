import Verif.Lemmas.Reachable
import Verif.Lemmas.OptimizerGraph

/-! Training histories, and evaluations whose gradients are read before the variables change. -/

namespace Verif
open Spec Relation
variable {Op V E W : Type}

namespace Eval
open Graph Props

/-- A history of the variable arrays, starting with `env0`, in which `pv` (with state `svs`) was updated with the gradients `gs`:
evaluations, of any graph and targets, in which only update ops write to these variables; and anything else that leaves them alone
(registration of further variables, updates of other parameters by hand, ...). -/
inductive Training (O : Ops Op) (S : Sem Op V E W) (o : Op) (pv : Nat) (svs : List Nat) (env0 : List V) : List V → List V → Prop where
  | start : Training O S o pv svs env0 [] env0
  | evaluation {gs gs' env : List V} {g : Graph Op} {fuel : Nat} {targets : List Nat} {feeds : List (Feed V)} {w : W}
      {res : EvalResult V E W} : Training O S o pv svs env0 gs env → Reachable O g → (∀ t ∈ targets, t < g.size) →
      eval S g fuel targets feeds env w = some (.ok res) → OnlyUpdates g targets o pv svs →
      GradsRead S g feeds env w o pv svs res.log gs' → Training O S o pv svs env0 (gs ++ gs') res.env
  | other {gs env env' : List V} : Training O S o pv svs env0 gs env → (∀ vid ∈ pv :: svs, env'[vid]? = env[vid]?) →
      Training O S o pv svs env0 gs env'

/-- What is known about the log of an evaluation that returned. -/
theorem eval_log {S : Sem Op V E W} {g : Graph Op} (hw : WF g) {feeds : List (Feed V)} {fuel : Nat} {targets : List Nat}
    (ht : ∀ t ∈ targets, t < g.nodes.length) {env : List V} {w : W} {res : EvalResult V E W}
    (h : eval S g fuel targets feeds env w = some (.ok res)) :
    (res.log.map Prod.fst).Nodup ∧ (∀ b, b ∈ res.log.map Prod.fst ↔ Needed g targets b) ∧
    InDependencyOrder g (res.log.map Prod.fst) ∧
    ∃ final, ExecList S g feeds (.start env w) res.log final ∧ final.env = res.env ∧
      List.Forall₂ (fun t r => TargetReturns S g feeds final t r) targets res.results := by
  obtain ⟨st, _, hs, hi, hlog, henv, hwd, hx, hres, _⟩ := eval_ok hw ht h
  refine ⟨?_, ?_, ?_, toExec st, hx, henv.symm, hres⟩
  · rw [hlog, List.map_reverse, List.nodup_reverse]; exact hi.nodup
  · intro b
    rw [hlog, List.map_reverse, List.mem_reverse]
    exact ⟨fun hb => (hi.logNeeded b hb).1, fun hb => hi.complete hs hb⟩
  · rw [hlog, List.map_reverse]
    exact topoLog_order hi.topo

theorem training_steps {O : Ops Op} {S : Sem Op V E W} {o : Op} {pv : Nat} {svs : List Nat} (hnd : (pv :: svs).Nodup)
    {T : List V → V → List V → Prop} (hT : UpdatesBy S o svs.length T) {env0 gs env vals : List V}
    (h0 : Holds env0 (pv :: svs) vals) (h : Training O S o pv svs env0 gs env) :
    ∃ vals', Steps T vals gs vals' ∧ Holds env (pv :: svs) vals' := by
  induction h with
  | start => exact ⟨vals, rfl, h0⟩
  | @evaluation gs gs' env g fuel targets feeds w res _ hg ht he hou hgr ih =>
    obtain ⟨vals1, h1, h2⟩ := ih
    obtain ⟨l1, l2, _, final, l3, l4, _⟩ := eval_log hg.wf ht he
    obtain ⟨gs2, vals2, i1, i2, i3⟩ := execList_updates hnd hT l3
      (fun a vid ha hv hm => hou a vid ((l2 a).1 (List.mem_map.2 ⟨_, ha, rfl⟩)) hv hm) h2
    have := gradsRead_unique l1 hgr i1
    subst this
    rw [l4] at i3
    exact ⟨vals2, steps_append.2 ⟨vals1, h1, i2⟩, i3⟩
  | other _ he ih =>
    obtain ⟨vals1, h1, h2⟩ := ih
    exact ⟨vals1, h1, h2.congr he⟩

/-- Every input of a called op had a value. -/
theorem inputRead_of_called {S : Sem Op V E W} {g : Graph Op} {feeds : List (Feed V)} {env : List V} {w : W} {log : List (Nat × Bool)}
    {s' : ExecState V E W} (h : ExecList S g feeds (.start env w) log s') {u : Nat} (hu : (u, true) ∈ log) {n : Node Op}
    (hn : g.nodes[u]? = some n) {i : Incoming} (hi : i ∈ n.incoming) : ∃ x, InputRead S g feeds env w log u i x := by
  obtain ⟨pre, post, rfl⟩ := List.append_of_mem hu
  obtain ⟨s1, h1, h2⟩ := execList_append h
  obtain ⟨s2, h3, _⟩ := execList_cons h2
  cases h3 with
  | run hn' ho hcv hin hc hr he =>
    rw [hn] at hn'; cases hn'
    obtain ⟨j, hj, hji⟩ := List.mem_iff_getElem.1 hi
    obtain ⟨x, _, hx⟩ := (inputsAre_ok_all hin).2 j i (by rw [List.getElem?_eq_getElem hj, hji])
    exact ⟨x.val, pre, post, s1, _, x.kind, rfl, h1, hcv, hx⟩

/-- An input read is determined by the state before the call. -/
theorem inputRead_split {S : Sem Op V E W} {g : Graph Op} {feeds : List (Feed V)} {env : List V} {w : W} {pre post : List (Nat × Bool)}
    {u : Nat} {i : Incoming} {x : V} (hnd : ((pre ++ (u, true) :: post).map Prod.fst).Nodup)
    (h : InputRead S g feeds env w (pre ++ (u, true) :: post) u i x) :
    ∃ s1 cv kind, ExecList S g feeds (.start env w) pre s1 ∧ (∀ b, Uses g u b → s1.results b = some (cv b)) ∧
      InputIs S.shapeOf g feeds s1.env cv i (.ok ⟨kind, x⟩) := by
  obtain ⟨pre', post', s1, cv, kind, e2, x1, c1, i1⟩ := h
  have hpre : pre = pre' := by
    rcases List.append_eq_append_iff.1 e2 with ⟨m, h1, h2⟩ | ⟨m, h1, h2⟩
    · cases m with
      | nil => simpa using h1.symm
      | cons y m =>
        simp at h2
        rw [h2.2] at hnd
        simp [List.nodup_append] at hnd
    · cases m with
      | nil => simpa using h1
      | cons y m =>
        simp at h2
        subst h1
        rw [← h2.1] at hnd
        simp [List.nodup_append] at hnd
  subst hpre
  exact ⟨s1, cv, kind, x1, c1, i1⟩

/-! ## Gradients at the start of an evaluation -/

theorem inputIs_congr {shapeOf : V → List Nat} {g : Graph Op} {feeds : List (Feed V)} {env env' : List V}
    {cv : Nat → Except E (List V)} {i : Incoming} {r : Except E (OpInput V)}
    (he : ∀ m vid, g.nodes[i.id]? = some m → m.variableId = some vid → env'[vid]? = env[vid]?)
    (h : InputIs shapeOf g feeds env cv i r) : InputIs shapeOf g feeds env' cv i r := by
  cases h with
  | placeholder hn hf => exact .placeholder hn hf
  | variable_ hn hp hv ha => exact .variable_ hn hp hv (by rw [he _ _ hn hv, ha])
  | result ho hc hy => exact .result ho hc hy
  | failed ho hc => exact .failed ho hc

theorem inputsAre_congr {shapeOf : V → List Nat} {g : Graph Op} {feeds : List (Feed V)} {env env' : List V}
    {cv : Nat → Except E (List V)} {is : List Incoming} {r : Except E (List (OpInput V))}
    (he : ∀ i ∈ is, ∀ m vid, g.nodes[i.id]? = some m → m.variableId = some vid → env'[vid]? = env[vid]?)
    (h : InputsAre shapeOf g feeds env cv is r) : InputsAre shapeOf g feeds env' cv is r := by
  induction h with
  | nil => exact .nil
  | cons a _ ih => exact .cons (inputIs_congr (he _ (by simp)) a) (ih fun i hi => he i (by simp [hi]))
  | later a _ ih => exact .later (inputIs_congr (he _ (by simp)) a) (ih fun i hi => he i (by simp [hi]))
  | first a => exact .first (inputIs_congr (he _ (by simp)) a)

theorem inDependencyOrder_prefix {g : Graph Op} {l l' : List Nat} (h : InDependencyOrder g (l ++ l')) : InDependencyOrder g l :=
  fun pre a post e b hb => h pre a (post ++ l') (by rw [e]; simp) b hb

theorem inDependencyOrder_closed {g : Graph Op} {l : List Nat} (h : InDependencyOrder g l) {u a : Nat} (hu : u ∈ l)
    (hua : TransGen (Uses g) u a) : a ∈ l := by
  have one : ∀ {x y : Nat}, x ∈ l → Uses g x y → y ∈ l := by
    intro x y hx hxy
    obtain ⟨pre, post, rfl⟩ := List.append_of_mem hx
    exact List.mem_append_left _ (h pre x post rfl y hxy)
  induction hua with
  | single h1 => exact one hu h1
  | tail _ h1 ih => exact one ih h1

/-- Ops that read a variable only before it is written compute their meanings at the start of the evaluation. -/
theorem execList_snapshot {f : Op → List (OpInput V) → Option (Except E (List V))} {S : Sem Op V E W} {g : Graph Op}
    {feeds : List (Feed V)} {env : List V} {w : W} {N Wr : Nat → Prop}
    (hpure : ∀ (a : Nat) (n : Node Op), N a → ¬ Wr a → g.nodes[a]? = some n → Computes S n.op (f n.op))
    (huse : ∀ a b, N a → Uses g a b → ¬ Wr b)
    (hord : ∀ a u vid, N a → ¬ Wr a → ReadsVar g a vid → N u → MayWrite g u vid → TransGen (Uses g) u a)
    {s' : ExecState V E W} {l : List (Nat × Bool)} (h : ExecList S g feeds (.start env w) l s')
    (hl : ∀ e ∈ l, N e.1) (hnd : (l.map Prod.fst).Nodup) (hdo : InDependencyOrder g (l.map Prod.fst)) :
    ∀ k r, ¬ Wr k → s'.results k = some r → Means f S.shapeOf g feeds env k r := by
  induction h with
  | nil => simp [ExecState.start]
  | @snoc l s1 e s2 hh h1 ih =>
    rw [List.map_append] at hnd hdo
    have hl' : ∀ e ∈ l, N e.1 := fun e he => hl e (by simp [he])
    have ih := ih hl' (List.nodup_append.1 hnd).1 (inDependencyOrder_prefix hdo)
    have hne := hl e (by simp)
    -- a variable read by a non-writer has not been written yet
    have henv : ∀ vid, ¬ Wr e.1 → ReadsVar g e.1 vid → env[vid]? = s1.env[vid]? := by
      intro vid hw hr
      refine (execList_frame hh ?_).symm
      intro u hu hm
      have hut := hord e.1 u vid hne hw hr (hl' _ hu) hm
      have hmem := inDependencyOrder_closed (inDependencyOrder_prefix hdo) (List.mem_map.2 ⟨_, hu, rfl⟩) hut
      exact (List.nodup_append.1 hnd).2.2 _ hmem _ (by simp) rfl
    intro k r hkw hk
    cases h1 with
    | @run id n cv xs w1 ws ys st r' env1 hn ho hcv hin hc hr he =>
      simp only at hk
      split at hk
      · rename_i hk'; subst hk'; cases hk
        refine .run hn ho (fun b hb => ih b _ (huse _ _ hne hb) (hcv b hb))
          (inputsAre_congr (fun i hi m vid hm hv => henv vid hkw ⟨n, hn, i, hi, m, hm, hv⟩) hin) ?_
        rw [← hpure _ _ hne hkw hn, hc]; exact hr
      · exact ih k r hkw hk
    | @skip id n cv er hn ho hcv hin =>
      simp only at hk
      split at hk
      · rename_i hk'; subst hk'; cases hk
        exact .fail hn ho (fun b hb => ih b _ (huse _ _ hne hb) (hcv b hb))
          (inputsAre_congr (fun i hi m vid hm hv => henv vid hkw ⟨n, hn, i, hi, m, hm, hv⟩) hin)
      · exact ih k r hkw hk

end Eval
end Verif
