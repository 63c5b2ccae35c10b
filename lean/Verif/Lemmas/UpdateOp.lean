import Verif.Lemmas.EvalOrder
import Verif.Lemmas.EvalTermination
import Verif.Lemmas.EvalPure
import Verif.Lemmas.GradApi
import Verif.Lemmas.OptimizerRuns
import Verif.Model.UpdateOp

/-! Evaluation of the tensor made by `get_update_op`. -/

namespace Verif
open Verif.Spec Relation

namespace Eval
open Graph
variable {Op V E W : Type}

/-! ## Later tensors do not matter -/

theorem access_ext {g g' : Graph Op} (h : Extends g g') {i : Nat} (hi : i < g.nodes.length) : g'.access i = g.access i := by
  have h1 := List.getElem?_eq_getElem hi
  unfold Graph.access
  rw [h1, h _ _ h1]

theorem getElem_ext {g g' : Graph Op} (h : Extends g g') {i : Nat} (hi : i < g.nodes.length) : g'.nodes[i]? = g.nodes[i]? := by
  have h1 := List.getElem?_eq_getElem hi
  rw [h1, h _ _ h1]

theorem gatherOne_ext {S : Sem Op V E W} {g g' : Graph Op} (h : Extends g g') {feeds : List (Feed V)} {s : Storage V E} {env : List V} {i : Incoming} (hi : i.id < g.nodes.length) :
    gatherOne S g' feeds s env i = gatherOne S g feeds s env i := by
  unfold gatherOne
  rw [access_ext h hi]

theorem gather_ext {S : Sem Op V E W} {g g' : Graph Op} (h : Extends g g') {feeds : List (Feed V)} {s : Storage V E} {env : List V} : ∀ {is : List Incoming},
    (∀ i ∈ is, i.id < g.nodes.length) → gather S g' feeds s env is = gather S g feeds s env is
  | [], _ => rfl
  | i :: is, hi => by
    unfold gather
    rw [gatherOne_ext h (hi i (by simp)), gather_ext h (fun j hj => hi j (by simp [hj]))]

theorem childrenToPush_ext {g g' : Graph Op} (h : Extends g g') {s : Storage V E} : ∀ {is : List Incoming},
    (∀ i ∈ is, i.id < g.nodes.length) → childrenToPush g' s is = childrenToPush g s is
  | [], _ => rfl
  | i :: is, hi => by
    unfold childrenToPush
    rw [access_ext h (hi i (by simp)), childrenToPush_ext h (fun j hj => hi j (by simp [hj]))]

theorem applyWrites_ext {g g' : Graph Op} (h : Extends g g') {is : List Incoming} (hi : ∀ i ∈ is, i.id < g.nodes.length) : ∀ {ws : List (Nat × V)} {env : List V},
    applyWrites g' is ws env = applyWrites g is ws env
  | [], _ => rfl
  | (k, v) :: ws, env => by
    have : writeTarget g' is k = writeTarget g is k := by
      unfold writeTarget
      cases hk : is[k]? with
      | none => rfl
      | some i => simp only; rw [getElem_ext h (hi i (List.mem_of_getElem? hk))]
    unfold applyWrites
    rw [this]
    cases writeTarget g is k with
    | none => exact applyWrites_ext h hi
    | some vid => exact applyWrites_ext h hi

theorem step_ext {S : Sem Op V E W} {g g' : Graph Op} (h : Extends g g') (hc : Closed g) {feeds : List (Feed V)} {e : Nat × Bool} (he : e.1 < g.nodes.length)
    (st : EvalState V E W) : step S g' feeds e st = step S g feeds e st := by
  unfold step
  rw [access_ext h he]
  cases hn : g.access e.1 with
  | error p => rfl
  | ok n =>
    have hi : ∀ i ∈ n.incoming, i.id < g.nodes.length := fun i hi => hc e.1 n (access_ok.1 hn) i hi
    simp only [bind, Except.bind]
    split
    · unfold visit
      rw [gather_ext h hi]
      simp only [applyWrites_ext h hi]
    · rw [childrenToPush_ext h hi]

theorem step_stack_lt {S : Sem Op V E W} {g : Graph Op} (hc : Closed g) {feeds : List (Feed V)} {e : Nat × Bool} (he : e.1 < g.nodes.length)
    {st st' : EvalState V E W} (hst : ∀ x ∈ st.stack, x.1 < g.nodes.length) (h : step S g feeds e st = .ok st') : ∀ x ∈ st'.stack, x.1 < g.nodes.length := by
  simp only [step, bind_ok] at h
  obtain ⟨n, hn, h⟩ := h
  have hn := access_ok.1 hn
  split at h
  · rcases visit_ok h with ⟨_, rfl⟩ | ⟨_, h1, _⟩
    · exact hst
    · rw [h1]; exact hst
  · simp only [bind_ok] at h
    obtain ⟨cs, hcs, h⟩ := h
    cases h
    intro x hx
    simp only [List.mem_append, List.mem_reverse, List.mem_map, List.mem_cons] at hx
    rcases hx with ⟨c, h1, rfl⟩ | rfl | hx
    · obtain ⟨i, hi, rfl, _⟩ := (childrenToPush_ok hcs c).1 h1
      exact hc _ _ hn i hi
    · exact he
    · exact hst x hx

theorem loop_ext {S : Sem Op V E W} {g g' : Graph Op} (h : Extends g g') (hc : Closed g) {feeds : List (Feed V)} : ∀ {fuel : Nat} {st : EvalState V E W},
    (∀ x ∈ st.stack, x.1 < g.nodes.length) → loop S g' feeds fuel st = loop S g feeds fuel st := by
  intro fuel
  induction fuel with
  | zero => intro st _; unfold loop; rfl
  | succ fuel ih =>
    intro st hst
    unfold loop
    split
    · rfl
    · rename_i e rest hs
      have he := hst e (by rw [hs]; simp)
      have hr : ∀ x ∈ rest, x.1 < g.nodes.length := fun x hx => hst x (by rw [hs]; simp [hx])
      simp only
      rw [step_ext h hc he]
      cases h1 : step S g feeds e { st with stack := rest } with
      | error p => rfl
      | ok st' => exact ih (step_stack_lt hc he (st := { st with stack := rest }) hr h1)

theorem aggregate_ext {S : Sem Op V E W} {g g' : Graph Op} (h : Extends g g') {feeds : List (Feed V)} {env : List V} : ∀ {ts : List Nat} {s : Storage V E},
    (∀ t ∈ ts, t < g.nodes.length) → aggregate S g' feeds env ts s = aggregate S g feeds env ts s
  | [], _, _ => rfl
  | t :: ts, s, ht => by
    have ih : ∀ s, aggregate S g' feeds env ts s = aggregate S g feeds env ts s := fun s => aggregate_ext h fun t ht' => ht t (by simp [ht'])
    unfold aggregate
    rw [access_ext h (ht t (by simp))]
    simp only [ih]

/-- An evaluation does not see tensors that were added later. -/
theorem eval_ext {S : Sem Op V E W} {g g' : Graph Op} (h : Extends g g') (hc : Closed g) {feeds : List (Feed V)} {fuel : Nat} {ts : List Nat} {env : List V} {w : W}
    (ht : ∀ t ∈ ts, t < g.nodes.length) : eval S g' fuel ts feeds env w = eval S g fuel ts feeds env w := by
  unfold eval
  rw [loop_ext h hc (by
    intro x hx
    simp only [initState, List.mem_reverse, List.mem_map] at hx
    obtain ⟨t, h1, rfl⟩ := hx
    exact ht t h1)]
  cases loop S g feeds fuel (initState ts env w) with
  | none => rfl
  | some r =>
    cases r with
    | error p => rfl
    | ok st => simp only; rw [aggregate_ext h ht]

/-! ## A stack below -/

theorem step_below {S : Sem Op V E W} {g : Graph Op} {feeds : List (Feed V)} {e : Nat × Bool} (st : EvalState V E W) (bot : List (Nat × Bool)) :
    step S g feeds e { st with stack := st.stack ++ bot } = (step S g feeds e st).map (fun st' => { st' with stack := st'.stack ++ bot }) := by
  unfold step
  cases g.access e.1 with
  | error p => rfl
  | ok n =>
    simp only [bind, Except.bind]
    split
    · unfold visit
      dsimp only
      split
      · rfl
      · cases gather S g feeds st.storage st.env n.incoming with
        | error p => rfl
        | ok ins =>
          simp only [bind, Except.bind]
          cases ins with
          | error e => rfl
          | ok xs =>
            dsimp only
            cases S.compute n.op st.world xs with
            | panic => rfl
            | done w ws ys status =>
              dsimp only
              split <;> rfl
    · cases childrenToPush g st.storage n.incoming with
      | error p => rfl
      | ok cs => simp [Except.map]

theorem loop_below {S : Sem Op V E W} {g : Graph Op} {feeds : List (Feed V)} (bot : List (Nat × Bool)) : ∀ {fuel : Nat} {st : EvalState V E W},
    (∀ p, loop S g feeds fuel st = some (.error p) → ∀ k, loop S g feeds (fuel + k) { st with stack := st.stack ++ bot } = some (.error p)) ∧
    (∀ st', loop S g feeds fuel st = some (.ok st') → ∀ k, ∃ k', k ≤ k' ∧
      loop S g feeds (fuel + k) { st with stack := st.stack ++ bot } = loop S g feeds k' { st' with stack := bot }) := by
  intro fuel
  induction fuel with
  | zero =>
    intro st
    unfold loop
    constructor
    · intro p h k
      split at h <;> cases h
    · intro st' h k
      split at h
      · rename_i hs
        cases h
        refine ⟨0 + k, by omega, ?_⟩
        rw [hs]
        rw [List.nil_append]
      · cases h
  | succ fuel ih =>
    intro st
    cases hs : st.stack with
    | nil =>
      have h0 : loop S g feeds (fuel + 1) st = some (.ok st) := by unfold loop; rw [hs]
      rw [h0]
      refine ⟨fun p h => (by cases h), fun st' h k => ?_⟩
      cases h
      exact ⟨fuel + 1 + k, by omega, by rw [List.nil_append]⟩
    | cons e rest =>
      have h0 : loop S g feeds (fuel + 1) st = match step S g feeds e { st with stack := rest } with
        | .error p => some (.error p)
        | .ok st' => loop S g feeds fuel st' := by
          conv_lhs => unfold loop
          rw [hs]
          rfl
      have h1 : ∀ k, loop S g feeds (fuel + 1 + k) { st with stack := e :: rest ++ bot } = match step S g feeds e { st with stack := rest } with
        | .error p => some (.error p)
        | .ok st' => loop S g feeds (fuel + k) { st' with stack := st'.stack ++ bot } := by
        intro k
        rw [show fuel + 1 + k = fuel + k + 1 by omega]
        conv_lhs => unfold loop
        simp only [List.cons_append]
        rw [step_below (S := S) (g := g) (feeds := feeds) (e := e) { st with stack := rest } bot]
        cases step S g feeds e { st with stack := rest } <;> rfl
      rw [h0]
      constructor
      · intro p h k
        rw [h1]
        cases h2 : step S g feeds e { st with stack := rest } with
        | error q => rw [h2] at h; exact h
        | ok st1 => rw [h2] at h; exact ih.1 p h k
      · intro st' h k
        rw [h1]
        cases h2 : step S g feeds e { st with stack := rest } with
        | error q => rw [h2] at h; cases h
        | ok st1 => rw [h2] at h; exact ih.2 st' h k

/-! ## `add_n` of the updates -/
open Verif.Gradient Verif.Opt Verif.Props

theorem addN_new {O : GradOps Op} {g g' : Graph Op} {u v up : Nat} {us : List Nat} (h : addN O g u (v :: us) = .ok (g', up)) :
    Extends g g' ∧ g.nodes.length ≤ up ∧ IsApp g' up O.addN (u :: v :: us) := by
  obtain ⟨h1, h2⟩ := addN_ok h
  refine ⟨h1.1, ?_, h2.resolve_left (by simp)⟩
  simp only [addN, bind_ok] at h
  obtain ⟨⟨g1, s⟩, h3, h4⟩ := h
  obtain ⟨e, _⟩ := build_new h4
  rw [e]
  by_contra hlt
  have hlt : g1.nodes.length < g.nodes.length := by simpa using hlt
  have := (shapeTensor_ok h3).1.1 _ _ (List.getElem?_eq_getElem hlt)
  have := (List.getElem?_eq_some_iff.1 this).1
  omega

theorem isOp_below {g : Graph Op} {a : Nat} (h : IsOp g a) : a < g.nodes.length := by
  obtain ⟨n, hn, _⟩ := h
  exact (List.getElem?_eq_some_iff.1 hn).1

theorem needed_op {g : Graph Op} {ts : List Nat} {a : Nat} (h : Needed g ts a) : IsOp g a := by
  obtain ⟨t, _, ho, hr⟩ := h
  rcases ReflTransGen.cases_tail hr with h | ⟨c, _, h⟩
  · exact h ▸ ho
  · exact h.2

theorem gather_results {S : Sem Op V E W} {g : Graph Op} {feeds : List (Feed V)} {s : Storage V E} {env : List V} {z : V} : ∀ {us : List Nat},
    (∀ u ∈ us, IsOp g u ∧ s u = some (.ok [z])) →
    gather S g feeds s env (us.map (fun x => ({ id := x } : Incoming))) = .ok (.ok (List.replicate us.length ⟨.nonVariable, z⟩))
  | [], _ => rfl
  | u :: us, h => by
    obtain ⟨⟨n, hn, hp, hv⟩, hs⟩ := h u (by simp)
    have ha : g.access u = .ok n := access_ok.2 hn
    have ih := gather_results (S := S) (feeds := feeds) (env := env) (us := us) (fun u hu => h u (by simp [hu]))
    simp [gather, gatherOne, ha, hp, hv, storageGet, hs, ih, bind, Except.bind, List.replicate_succ]

/-- The storage after the updates returned. -/
theorem updates_storage {S : Sem Op V E W} {g : Graph Op} (hw : WF g) {fuel : Nat} {us : List Nat} (hop : ∀ u ∈ us, IsOp g u) {feeds : List (Feed V)} {env : List V} {w : W}
    {z : V} (hz : ∀ u ∈ us, ∀ n, g.nodes[u]? = some n → ∀ w xs w' ws ys st, S.compute n.op w xs = .done w' ws ys st → ys = [z]) {env' : List V}
    (h : runUpdates S g fuel us feeds env w = some (.ok env')) :
    ∃ st : EvalState V E W, loop S g feeds fuel (initState us env w) = some (.ok st) ∧ st.env = env' ∧ Inv g us st ∧ ∀ u ∈ us, st.storage u = some (.ok [z]) := by
  obtain ⟨res, he, rfl, hok⟩ := runUpdates_ok h
  have ht : ∀ u ∈ us, u < g.nodes.length := fun u hu => isOp_below (hop u hu)
  obtain ⟨st, hl, hs, hi, hlog, henv, _, hx, hres, _⟩ := eval_ok hw ht he
  refine ⟨st, hl, henv.symm, hi, fun u hu => ?_⟩
  have hc := target_called hw ht he hok hu (hop u hu)
  have hnd : (res.log.map Prod.fst).Nodup := by rw [hlog, List.map_reverse, List.nodup_reverse]; exact hi.nodup
  obtain ⟨n, cv, hn, _, h1, _⟩ := execList_final hx hnd hc
  obtain ⟨_, xs, r, _, h2, pre, post, s1, s2, _, _, h3, h4⟩ := h1 rfl
  obtain ⟨j, hj, hji⟩ := List.mem_iff_getElem.1 hu
  obtain ⟨r', h5, h6⟩ := (forall₂_get hres).2 j u (by rw [List.getElem?_eq_getElem hj, hji])
  obtain ⟨v, rfl⟩ := hok r' (List.mem_of_getElem? h5)
  obtain ⟨m, hm, hp, hv⟩ := hop u hu
  show st.storage u = _
  cases h6 with
  | variable_ hn' hv' => rw [hm] at hn'; cases hn'; rw [hv] at hv'; cases hv'
  | placeholder hn' _ hf => obtain ⟨_, _, hp', _⟩ := hf; rw [hm] at hn'; cases hn'; rw [hp] at hp'; cases hp'
  | @result ys y _ h7 h8 =>
    rw [h2] at h7
    cases h7
    have h2 : st.storage u = some (.ok ys) := h2
    rw [h2]
    cases h3 with
    | @run _ n' cv' xs' w1 ws ys' status r'' env1 hn' _ _ _ hcall hr _ =>
      rw [hn] at hn'; cases hn'
      simp only [if_true] at h4
      cases h4
      have := hz u hu n hn _ _ _ _ _ _ hcall
      subst this
      simp only [outcomeResult, List.cons_ne_nil, and_false, if_false] at hr
      · cases status with
        | ok _ => exact hr.symm
        | error _ => cases hr

/-- Evaluating the sum of the updates does what evaluating the updates does. -/
theorem updateOp_runs {O : GradOps Op} {S : Sem Op V E W} {g g' : Graph Op} (hw : WF g) (hw' : WF g') {fuel : Nat} {us : List Nat} (hop : ∀ u ∈ us, IsOp g u) {feeds : List (Feed V)}
    {env : List V} {w : W} {z : V} (hz : ∀ u ∈ us, ∀ n, g.nodes[u]? = some n → ∀ w xs w' ws ys st, S.compute n.op w xs = .done w' ws ys st → ys = [z])
    {P : V → Prop} (hPz : P z) (hadd : ∀ k w, 2 ≤ k → ∃ y, P y ∧ S.compute O.addN w (List.replicate k ⟨.nonVariable, z⟩) = .done w [] [y] (.ok ())) {up : Nat} (hb : updateOp O g us = some (.ok (g', up)))
    {env' : List V} (h : runUpdates S g fuel us feeds env w = some (.ok env')) :
    ∀ k, ∃ res y, eval S g' (fuel + 2 + k) [up] feeds env w = some (.ok res) ∧ res.env = env' ∧ res.results = [.ok y] ∧ P y := by
  intro k
  obtain ⟨st, hl, henv, hi, hst⟩ := updates_storage hw hop hz h
  match us, hb with
  | [u], hb =>
    simp only [updateOp, addN, Option.some.injEq, Except.ok.injEq, Prod.mk.injEq] at hb
    obtain ⟨rfl, rfl⟩ := hb
    have hl' := loop_mono hl (2 + k)
    obtain ⟨n, hn, hp, hv⟩ := hop u (List.mem_singleton_self u)
    have ha : g.access u = .ok n := access_ok.2 hn
    refine ⟨⟨[.ok z], st.env, st.world, st.log.reverse⟩, z, ?_, henv, rfl, hPz⟩
    unfold eval
    rw [show fuel + 2 + k = fuel + (2 + k) by omega, hl']
    simp [aggregate, ha, hv, hp, take, hst u (by simp), bind, Except.bind]
  | u :: v :: us, hb =>
    simp only [updateOp, Option.some.injEq] at hb
    obtain ⟨hext, hup, n, hn, hno, hin, hp, hv⟩ := addN_new hb
    have ha : g'.access up = .ok n := access_ok.2 hn
    have hop' : ∀ x ∈ u :: v :: us, IsOp g' x := fun x hx => hext.isOp (hop x hx)
    -- the first step
    obtain ⟨cs, hcs⟩ := childrenToPush_total (g := g') (s := (fun _ => none : Storage V E)) (is := n.incoming) (fun i hi => hw'.closed up n hn i hi)
    classical
    have hcs' := childrenToPush_filter (fun c => decide (IsOp g' c)) (fun c => by simp) hcs
    have hids : n.incoming.map Incoming.id = u :: v :: us := by rw [hin, List.map_map]; simp [Function.comp_def]
    rw [hids, List.filter_eq_self.2 (fun x hx => by simpa using hop' x hx)] at hcs'
    subst hcs'
    -- the updates
    have hlt : ∀ x ∈ (initState (u :: v :: us) env w : EvalState V E W).stack, x.1 < g.nodes.length := by
      intro x hx
      simp only [initState, List.mem_reverse, List.mem_map] at hx
      obtain ⟨t, h1, rfl⟩ := hx
      exact isOp_below (hop t h1)
    rw [← loop_ext hext hw.closed hlt] at hl
    obtain ⟨k', hk', hloop⟩ := (loop_below (S := S) (g := g') (feeds := feeds) [(up, true)] (fuel := fuel) (st := initState (u :: v :: us) env w)).2 st hl (1 + k)
    obtain ⟨k', rfl⟩ : ∃ j, k' = j + 1 := ⟨k' - 1, by omega⟩
    have h1 : loop S g' feeds (fuel + 2 + k) (initState [up] env w) = loop S g' feeds (k' + 1) { st with stack := [(up, true)] } := by
      rw [← hloop, show fuel + 2 + k = fuel + (1 + k) + 1 by omega]
      conv_lhs => unfold loop
      simp only [initState, List.map_cons, List.map_nil, List.reverse_cons, List.reverse_nil, List.nil_append, step, ha, bind, Except.bind, Bool.false_eq_true, if_false, hcs]
    -- the sum
    have hns : st.storage up = none := by
      cases hs : st.storage up with
      | none => rfl
      | some r =>
        exfalso
        have := isOp_below (needed_op (hi.logNeeded up ((hi.stored up).1 (by simp [hs]))).1)
        omega
    obtain ⟨y, hPy, hy⟩ := hadd (u :: v :: us).length st.world (by simp)
    have hg : gather S g' feeds st.storage st.env n.incoming = .ok (.ok (List.replicate (u :: v :: us).length ⟨.nonVariable, z⟩)) := by
      rw [hin]
      exact gather_results (fun x hx => ⟨hop' x hx, hst x hx⟩)
    have hwv : wouldNotVisit n up st.storage = false := by simp [wouldNotVisit, hp, Node.isVariable, hv, hns]
    have h2 : loop S g' feeds (k' + 1) { st with stack := [(up, true)] } =
        some (.ok { stack := [], storage := Eval.insert st.storage up (.ok [y]), env := st.env, world := st.world, log := (up, true) :: st.log }) := by
      unfold loop
      simp only [step, ha, bind, Except.bind, if_true, visit, hwv, hg, hno, hy]
      simp [applyWrites]
      unfold loop
      rfl
    refine ⟨⟨[.ok y], st.env, st.world, ((up, true) :: st.log).reverse⟩, y, ?_, henv, rfl, hPy⟩
    unfold eval
    rw [h1, h2]
    simp [aggregate, ha, hv, hp, take, Eval.insert, bind, Except.bind]

/-- The evaluation of different updates can only panic while ops are executed. -/
theorem updates_panic {S : Sem Op V E W} {g : Graph Op} (hw : WF g) {fuel : Nat} {us : List Nat} (hnd : us.Nodup) (hop : ∀ u ∈ us, IsOp g u) {feeds : List (Feed V)} {env : List V} {w : W}
    {z : V} (hz : ∀ u ∈ us, ∀ n, g.nodes[u]? = some n → ∀ w xs w' ws ys st, S.compute n.op w xs = .done w' ws ys st → ys = [z]) {p : Panic}
    (h : eval S g fuel us feeds env w = some (.error p)) : loop S g feeds fuel (initState us env w) = some (.error p) := by
  have ht : ∀ u ∈ us, u < g.nodes.length := fun u hu => isOp_below (hop u hu)
  unfold eval at h
  split at h
  · cases h
  · rename_i hl; cases h; exact hl
  · rename_i st hl
    exfalso
    obtain ⟨⟨hi, hx⟩, hs⟩ := loop_inv (fun st : EvalState V E W => Inv g us st ∧ ExecList S g feeds (.start env w) st.log.reverse (toExec st))
      (fun st st' e rest hstk hP hst => ⟨inv_step hw hstk hP.1 hst, execList_step hw hstk hP.1 hP.2 hst⟩) fuel _ st ⟨inv_init ht env w, by exact ExecList.nil⟩ hl
    have hnd' : (st.log.reverse.map Prod.fst).Nodup := by rw [List.map_reverse, List.nodup_reverse]; exact hi.nodup
    obtain ⟨rs, hrs⟩ := aggregate_total (S := S) (feeds := feeds) (env := st.env) (w := st.world) (s := st.storage) hw (ts := us) (fun u hu => by
      obtain ⟨⟨a, fl⟩, hm, rfl⟩ := List.mem_map.1 (hi.complete hs ⟨u, hu, hop u hu, .refl⟩)
      obtain ⟨n, cv, hn, _, h1, h2⟩ := execList_final hx hnd' (List.mem_reverse.2 hm)
      cases fl with
      | false =>
        obtain ⟨_, e, _, h3⟩ := h2 rfl
        exact ⟨.error e, .failed (hop _ hu) h3⟩
      | true =>
        obtain ⟨_, xs, r, _, h2, pre, post, s1, s2, _, _, h3, h4⟩ := h1 rfl
        cases r with
        | error e => exact ⟨.error e, .failed (hop _ hu) h2⟩
        | ok ys =>
          cases h3 with
          | @run _ n' cv' xs' w1 ws ys' status r'' env1 hn' _ _ _ hcall hr _ =>
            rw [hn] at hn'; cases hn'
            simp only [if_true] at h4
            cases h4
            have := hz _ hu n hn _ _ _ _ _ _ hcall
            subst this
            simp only [outcomeResult, List.cons_ne_nil, and_false, if_false] at hr
            cases status with
            | ok _ => cases hr; exact ⟨.ok z, .result (hop _ hu) h2 rfl⟩
            | error _ => cases hr) (fun pre t mid post e => by
      rw [e] at hnd
      simp [List.nodup_append] at hnd)
    rw [hrs] at h
    cases h

/-- If the updates panic, so does the evaluation of their sum. -/
theorem updateOp_panics {O : GradOps Op} {S : Sem Op V E W} {g g' : Graph Op} (hw : WF g) (hw' : WF g') {fuel : Nat} {us : List Nat} (hop : ∀ u ∈ us, IsOp g u) {feeds : List (Feed V)}
    {env : List V} {w : W} {up : Nat} (hb : updateOp O g us = some (.ok (g', up))) {p : Panic} (h : loop S g feeds fuel (initState us env w) = some (.error p)) :
    eval S g' (fuel + 1) [up] feeds env w = some (.error p) := by
  match us, hb with
  | [u], hb =>
    simp only [updateOp, addN, Option.some.injEq, Except.ok.injEq, Prod.mk.injEq] at hb
    obtain ⟨rfl, rfl⟩ := hb
    unfold eval
    rw [loop_mono h 1]
  | u :: v :: us, hb =>
    simp only [updateOp, Option.some.injEq] at hb
    obtain ⟨hext, hup, n, hn, hno, hin, hp, hv⟩ := addN_new hb
    have ha : g'.access up = .ok n := access_ok.2 hn
    have hop' : ∀ x ∈ u :: v :: us, IsOp g' x := fun x hx => hext.isOp (hop x hx)
    obtain ⟨cs, hcs⟩ := childrenToPush_total (g := g') (s := (fun _ => none : Storage V E)) (is := n.incoming) (fun i hi => hw'.closed up n hn i hi)
    classical
    have hcs' := childrenToPush_filter (fun c => decide (IsOp g' c)) (fun c => by simp) hcs
    have hids : n.incoming.map Incoming.id = u :: v :: us := by rw [hin, List.map_map]; simp [Function.comp_def]
    rw [hids, List.filter_eq_self.2 (fun x hx => by simpa using hop' x hx)] at hcs'
    subst hcs'
    have hlt : ∀ x ∈ (initState (u :: v :: us) env w : EvalState V E W).stack, x.1 < g.nodes.length := by
      intro x hx
      simp only [initState, List.mem_reverse, List.mem_map] at hx
      obtain ⟨t, h1, rfl⟩ := hx
      exact isOp_below (hop t h1)
    rw [← loop_ext hext hw.closed hlt] at h
    have h1 := (loop_below (S := S) (g := g') (feeds := feeds) [(up, true)] (fuel := fuel) (st := initState (u :: v :: us) env w)).1 p h
    have h2 : loop S g' feeds (fuel + 1) (initState [up] env w) = some (.error p) := by
      unfold loop
      simp only [initState, List.map_cons, List.map_nil, List.reverse_cons, List.reverse_nil, List.nil_append, step, ha, bind, Except.bind, Bool.false_eq_true, if_false, hcs]
      simpa [initState] using h1 0
    unfold eval
    rw [h2]

/-! ## Order of execution and state -/

/-- Whether an op is called or skipped is determined by the state. -/
theorem execOne_flag {S : Sem Op V E W} {g : Graph Op} {feeds : List (Feed V)} {s : ExecState V E W} {a : Nat} {b b' : Bool}
    {s1 s2 : ExecState V E W} (h1 : ExecOne S g feeds s (a, b) s1) (h2 : ExecOne S g feeds s (a, b') s2) : b = b' := by
  have hcvs : ∀ {a : Nat} {cv cv' : Nat → Except E (List V)} {n : Node Op}, g.nodes[a]? = some n →
      (∀ b, Uses g a b → s.results b = some (cv b)) → (∀ b, Uses g a b → s.results b = some (cv' b)) →
      ∀ i ∈ n.incoming, IsOp g i.id → cv i.id = cv' i.id := by
    intro a cv cv' n hn ha hb i hi ho
    have h1 := ha i.id ⟨⟨n, hn, i, hi, rfl⟩, ho⟩
    have h2 := hb i.id ⟨⟨n, hn, i, hi, rfl⟩, ho⟩
    rw [h1] at h2; exact Option.some.inj h2
  cases h1 with
  | run hn _ hcv hin _ _ _ =>
    cases h2 with
    | run _ _ _ _ _ _ _ => rfl
    | skip hn' _ hcv' hin' =>
      rw [hn] at hn'; cases hn'
      cases inputsAre_unique (hcvs hn hcv hcv') hin hin'
  | skip hn _ hcv hin =>
    cases h2 with
    | skip _ _ _ _ => rfl
    | run hn' _ hcv' hin' _ _ _ =>
      rw [hn] at hn'; cases hn'
      cases inputsAre_unique (hcvs hn hcv hcv') hin hin'

theorem execList_ids {S : Sem Op V E W} {g : Graph Op} {feeds : List (Feed V)} {s s1 s2 : ExecState V E W} {l l' : List (Nat × Bool)}
    (h1 : ExecList S g feeds s l s1) (h2 : ExecList S g feeds s l' s2) (he : l.map Prod.fst = l'.map Prod.fst) : s1 = s2 := by
  induction h1 generalizing s2 l' with
  | nil =>
    cases h2 with
    | nil => rfl
    | snoc => simp at he
  | @snoc l sa e sb _ h3 ih =>
    cases h2 with
    | nil => simp at he
    | @snoc l2 sc e' _ h4 h5 =>
      rw [List.map_append, List.map_append] at he
      obtain ⟨h6, h7⟩ := List.append_inj' he rfl
      cases ih h4 h6
      obtain ⟨a, b⟩ := e
      obtain ⟨a', b'⟩ := e'
      simp only [List.map_cons, List.map_nil, List.cons.injEq, and_true] at h7
      subst h7
      cases execOne_flag h3 h5
      exact execOne_eq h3 h5

/-- Targets listed before others do not change what these do to the variables, if they need no further writing ops. -/
theorem eval_env_first {S : Sem Op V E W} {g : Graph Op} (hw : WF g) {feeds : List (Feed V)} {fuel fuel' : Nat} {ts us : List Nat} (ht : ∀ t ∈ ts ++ us, t < g.nodes.length)
    {env : List V} {w : W} {res res' : EvalResult V E W} (h : eval S g fuel (ts ++ us) feeds env w = some (.ok res)) (h' : eval S g fuel' us feeds env w = some (.ok res'))
    (hno : ∀ a vid, Needed g ts a → ¬ Needed g us a → ¬ MayWrite g a vid) : res.env = res'.env := by
  have v1 := eval_visits hw ht h
  have ht' : ∀ t ∈ us, t < g.nodes.length := fun t h => ht t (by simp [h])
  have v2 := eval_visits hw ht' h'
  obtain ⟨l1, l2, _, fin, l3, l4, _⟩ := eval_log hw ht h
  obtain ⟨_, _, _, fin', l3', l4', _⟩ := eval_log hw ht' h'
  rw [List.reverse_append] at v1
  obtain ⟨d0, w1, w2⟩ := v1.split
  have e0 := w1.unique v2
  obtain ⟨rest, hr⟩ := w2.prefix
  have hl : res.log = res.log.take d0.length ++ res.log.drop d0.length := (List.take_append_drop _ _).symm
  rw [hl] at l3
  obtain ⟨s1, x1, x2⟩ := execList_append l3
  have e1 : (res.log.take d0.length).map Prod.fst = res'.log.map Prod.fst := by
    rw [← e0, List.map_take, hr, List.take_left]
  cases execList_ids x1 l3' e1
  rw [← l4, ← l4']
  apply List.ext_getElem?
  intro vid
  refine execList_frame x2 (fun a ha => ?_)
  have ha2 : a ∈ rest := by
    have := List.mem_map.2 ⟨_, ha, (rfl : Prod.fst (a, true) = a)⟩
    rw [List.map_drop, hr, List.drop_left] at this
    exact this
  have hnd : (d0 ++ rest).Nodup := hr ▸ l1
  have hna : ¬ Needed g us a := fun hn => by
    have : a ∈ d0 := (w1.mem_iff a).2 (by obtain ⟨t, h1, h2⟩ := hn; exact ⟨t, by simp [h1], h2⟩)
    exact (List.nodup_append.1 hnd).2.2 a this a ha2 rfl
  have hnt : Needed g (ts ++ us) a := (l2 a).1 (by rw [hr]; simp [ha2])
  obtain ⟨t, h1, h2⟩ := hnt
  rcases List.mem_append.1 h1 with h1 | h1
  · exact hno a vid ⟨t, h1, h2⟩ hna
  · exact absurd ⟨t, h1, h2⟩ hna

end Eval
end Verif
