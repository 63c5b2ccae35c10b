import Verif.Lemmas.UpdateOp

/-! When an evaluation returns, with the order in which ops are executed known beforehand. -/

namespace Verif
open Verif.Spec Relation

namespace Eval
open Graph
variable {Op V E W : Type}

/-! ## The order exists -/

theorem uses_path {g : Graph Op} {a b : Nat} (h : TransGen (Uses g) a b) : DependsOn g a b := by
  induction h with
  | single h => exact .single h.1
  | tail _ h ih => exact ih.tail h.1

theorem closed_depends {g : Graph Op} (hc : Closed g) {a b : Nat} (h : DependsDirectly g a b) : a < g.nodes.length ∧ b < g.nodes.length := by
  obtain ⟨n, hn, i, hi, rfl⟩ := h
  exact ⟨(List.getElem?_eq_some_iff.1 hn).1, hc a n hn i hi⟩

/-- No infinite descent in a graph without cycles. -/
theorem depends_wf {g : Graph Op} (hc : Closed g) (hac : Acyclic g) : WellFounded (fun b a => DependsDirectly g a b) := by
  let r : Fin g.nodes.length → Fin g.nodes.length → Prop := fun b a => DependsOn g a.1 b.1
  have : IsTrans _ r := ⟨fun a b c h1 h2 => TransGen.trans h2 h1⟩
  have : Std.Irrefl r := ⟨fun a => hac a.1⟩
  have hr : WellFounded r := Finite.wellFounded_of_trans_of_irrefl r
  have key : ∀ x : Fin g.nodes.length, Acc (fun b a => DependsDirectly g a b) x.1 := by
    intro x
    induction x using hr.induction with
    | _ x ih =>
      refine ⟨_, fun y hy => ?_⟩
      exact ih ⟨y, (closed_depends hc hy).2⟩ (.single hy)
  refine ⟨fun a => ⟨_, fun y hy => key ⟨y, (closed_depends hc hy).2⟩⟩⟩

/-- A traversal of a graph without cycles ends. -/
theorem visits_exist {g : Graph Op} (hc : Closed g) (hac : Acyclic g) (xs : List Nat) (hx : ∀ x ∈ xs, x < g.nodes.length) (d : List Nat) : ∃ d', Visits g d xs d' := by
  have one : ∀ x, x < g.nodes.length → ∀ d, ∃ d', Visits g d [x] d' := by
    intro x
    induction x using (depends_wf hc hac).induction with
    | _ x ih =>
      intro hx d
      by_cases h : x ∈ d ∨ ¬ IsOp g x
      · exact ⟨d, .skip h .nil⟩
      · simp only [not_or, Classical.not_not] at h
        have hn := List.getElem?_eq_getElem hx
        have all : ∀ ys : List Nat, (∀ y ∈ ys, DependsDirectly g x y) → ∀ d, ∃ d', Visits g d ys d' := by
          intro ys
          induction ys with
          | nil => exact fun _ d => ⟨d, .nil⟩
          | cons y ys ih2 =>
            intro hys d
            have hy := hys y (by simp)
            obtain ⟨d1, h1⟩ := ih y hy (closed_depends hc hy).2 d
            obtain ⟨d2, h2⟩ := ih2 (fun z hz => hys z (by simp [hz])) d1
            exact ⟨d2, h1.trans h2⟩
        obtain ⟨d1, h1⟩ := all ((g.nodes[x].incoming.map Incoming.id).reverse) (by
          intro y hy
          obtain ⟨i, hi, rfl⟩ := List.mem_map.1 (List.mem_reverse.1 hy)
          exact ⟨_, hn, i, hi, rfl⟩) d
        exact ⟨_, .visit h.1 h.2 hn h1 .nil⟩
  induction xs generalizing d with
  | nil => exact ⟨d, .nil⟩
  | cons x xs ih =>
    obtain ⟨d1, h1⟩ := one x (hx x (by simp)) d
    obtain ⟨d2, h2⟩ := ih (fun y hy => hx y (by simp [hy])) d1
    exact ⟨d2, h1.trans h2⟩

theorem _root_.Verif.Spec.Visits.order {g : Graph Op} {d xs d' : List Nat} (h : Visits g d xs d') (hd : InDependencyOrder g d) : InDependencyOrder g d' := by
  induction h with
  | nil => exact hd
  | skip _ _ ih => exact ih hd
  | @visit d x n zs d1 d2 a b c e hh ih1 ih2 =>
    refine ih2 ?_
    have h1 := ih1 hd
    have hcl := e.covers (fun a ha b hb => inDependencyOrder_closed hd ha (.single hb))
    intro pre y post he z hz
    rcases List.eq_nil_or_concat post with rfl | ⟨post', w, rfl⟩
    · obtain ⟨rfl, h2⟩ := List.append_inj' he rfl
      cases h2
      obtain ⟨⟨n', hn', i, hi, rfl⟩, ho⟩ := hz
      rw [c] at hn'; cases hn'
      exact hcl.2 _ (by simp; exact ⟨i, hi, rfl⟩) ho
    · rw [List.concat_eq_append] at he
      obtain ⟨h2, _⟩ := List.append_inj' (show d1 ++ [x] = (pre ++ y :: post') ++ [w] by simpa using he) rfl
      exact h1 pre y post' h2 z hz

theorem _root_.Verif.Spec.Visits.nodup {g : Graph Op} (hac : Acyclic g) {d xs d' : List Nat} (h : Visits g d xs d') (hd : d.Nodup) : d'.Nodup := by
  induction h with
  | nil => exact hd
  | skip _ _ ih => exact ih hd
  | @visit d x n zs d1 d2 a b c e hh ih1 ih2 =>
    refine ih2 ?_
    rw [List.nodup_append]
    refine ⟨ih1 hd, by simp, fun y hy z hz => ?_⟩
    rw [List.mem_singleton.1 hz]
    rintro rfl
    rcases e.needed hy with h1 | ⟨t, h1, h2, h3⟩
    · exact a h1
    · obtain ⟨i, hi, rfl⟩ := List.mem_map.1 (List.mem_reverse.1 h1)
      exact hac y (uses_path (TransGen.head' ⟨⟨n, c, i, hi, rfl⟩, h2⟩ h3))

/-! ## The evaluator follows it -/

theorem _root_.Verif.Spec.Visits.to_filter {g : Graph Op} {p : Nat → Bool} : ∀ {ys d d' : List Nat}, Visits g d ys d' → (∀ y ∈ ys, p y = false → y ∈ d ∨ ¬ IsOp g y) → Visits g d (ys.filter p) d'
  | [], _, _, h, _ => h
  | y :: ys, d, d', h, hy => by
    by_cases hp : p y = true
    · rw [List.filter_cons, if_pos hp]
      cases h with
      | skip a h => exact .skip a (to_filter h fun z hz => hy z (by simp [hz]))
      | visit a b c e h =>
        refine .visit a b c e (to_filter h fun z hz hpz => (hy z (by simp [hz]) hpz).imp (fun h1 => ?_) id)
        exact List.mem_append_left _ (e.mem h1)
    · rw [List.filter_cons, if_neg hp]
      have hsk := hy y (by simp) (by simpa using hp)
      cases h with
      | skip a h => exact to_filter h fun z hz => hy z (by simp [hz])
      | visit a b _ _ _ => exact absurd hsk (by simp only [not_or, Classical.not_not]; exact ⟨a, b⟩)

theorem Works.of_visits {g : Graph Op} {s : List (Nat × Bool)} {d2 : List Nat} : ∀ {ys d d1 : List Nat}, Visits g d ys d1 → Works g d1 s d2 →
    Works g d (ys.map (fun c => (c, false)) ++ s) d2
  | [], d, d1, h, h2 => by cases h; exact h2
  | y :: ys, d, d1, h, h2 => by
    obtain ⟨d3, h3, h4⟩ := Visits.split (xs := [y]) (ys := ys) h
    exact .expand h3 (of_visits h4 h2)

theorem Works.prefix {g : Graph Op} {d s d'} (h : Works g d s d') : ∃ l, d' = d ++ l := by
  induction h with
  | nil => exact ⟨[], by simp⟩
  | expand h1 _ ih =>
    obtain ⟨l1, rfl⟩ := h1.prefix
    obtain ⟨l2, rfl⟩ := ih
    exact ⟨l1 ++ l2, by simp⟩
  | skip _ _ ih => exact ih
  | run _ _ _ ih => obtain ⟨l, hl⟩ := ih; exact ⟨_, by rw [hl, List.append_assoc]⟩

/-- What is left to do after a step. -/
theorem step_works {S : Sem Op V E W} {g : Graph Op} {feeds : List (Feed V)} (hw : WF g) (hac : Acyclic g) {targets : List Nat} {st st' : EvalState V E W} {e : Nat × Bool} {rest : List (Nat × Bool)}
    (hs : st.stack = e :: rest) (hi : Inv g targets st) {L : List Nat} (hL : Works g (st.log.map Prod.fst).reverse st.stack L)
    (h1 : step S g feeds e { st with stack := rest } = .ok st') : Works g (st'.log.map Prod.fst).reverse st'.stack L := by
  obtain ⟨x, b⟩ := e
  rw [hs] at hL
  simp only [step, bind_ok] at h1
  obtain ⟨n, hn, h1⟩ := h1
  have hn := access_ok.1 hn
  split at h1
  · rename_i hb
    subst hb
    rcases visit_ok h1 with ⟨hwn, rfl⟩ | ⟨hwn, hs1, r, b, hsto, hlog, _⟩
    · have hsk : x ∈ (st.log.map Prod.fst).reverse ∨ ¬ IsOp g x := by
        rcases (wouldNotVisit_iff hn st.storage).1 hwn with h2 | h2
        · exact .inr h2
        · left; simpa using (hi.stored x).1 h2
      cases hL with
      | skip _ h => exact h
      | run a b _ => exact absurd hsk (by simp only [not_or, Classical.not_not]; exact ⟨a, b⟩)
    · have hwn' : ¬ (¬ IsOp g x ∨ (st.storage x).isSome = true) := by
        intro h'; rw [(wouldNotVisit_iff hn st.storage).2 h'] at hwn; cases hwn
      rw [hlog, hs1]
      cases hL with
      | skip a _ =>
        rcases a with a | a
        · exact absurd (.inr ((hi.stored x).2 (by simpa using a))) hwn'
        · exact absurd (.inl a) hwn'
      | run _ _ h => simpa using h
  · rename_i hb
    have hb : b = false := by simpa using hb
    subst hb
    simp only [bind_ok] at h1
    obtain ⟨cs, hcs, h1⟩ := h1
    cases h1
    classical
    have hcs' := childrenToPush_filter (fun c => decide (IsOp g c ∧ st.storage c = none)) (fun c => by simp) hcs
    have hdone : ∀ y, decide (IsOp g y ∧ st.storage y = none) = false → y ∈ (st.log.map Prod.fst).reverse ∨ ¬ IsOp g y := by
      intro y hp
      simp only [decide_eq_false_iff_not, not_and] at hp
      by_cases ho : IsOp g y
      · left
        have : (st.storage y).isSome = true := by
          cases h : st.storage y with
          | none => exact absurd h (hp ho)
          | some r => rfl
        simpa using (hi.stored y).1 this
      · exact .inr ho
    simp only [← List.map_reverse (f := fun c : Nat => (c, false))]
    cases hL with
    | expand hv hk =>
      cases hv with
      | skip a h =>
        cases h
        have hnil : cs = [] := by
          rw [List.eq_nil_iff_forall_not_mem]
          intro c hc
          rw [hcs', List.mem_filter] at hc
          obtain ⟨h2, h3⟩ := hc
          obtain ⟨i, hi', rfl⟩ := List.mem_map.1 h2
          simp only [decide_eq_true_eq] at h3
          have hu : Uses g x i.id := ⟨⟨n, hn, i, hi', rfl⟩, h3.1⟩
          rcases a with hx | hx
          · have := (hi.stored i.id).2 (topoLog_closed hi.topo (by simpa using hx) hu)
            rw [h3.2] at this; cases this
          · exact hx (uses_isOp_left hw hu)
        subst hnil
        exact .skip a hk
      | @visit _ _ n' _ d1 _ a b c e h =>
        cases h
        rw [hn] at c; cases c
        rw [hcs', ← List.filter_reverse]
        refine Works.of_visits (e.to_filter fun y _ hp => hdone y hp) ?_
        by_cases hx : x ∈ d1
        · exfalso
          rcases e.needed hx with h1 | ⟨t, h1, h2, h3⟩
          · exact a h1
          · obtain ⟨i, hi, rfl⟩ := List.mem_map.1 (List.mem_reverse.1 h1)
            exact hac x (uses_path (TransGen.head' ⟨⟨n, hn, i, hi, rfl⟩, h2⟩ h3))
        · exact .run hx b hk

theorem visit_of_exec {S : Sem Op V E W} {g : Graph Op} (hw : WF g) {feeds : List (Feed V)} {n : Node Op} {id : Nat} {st : EvalState V E W} (hn : g.nodes[id]? = some n)
    {b : Bool} {s' : ExecState V E W} (h : ExecOne S g feeds (toExec st) (id, b) s') : ∃ st', visit S g feeds n id st = .ok st' := by
  unfold visit
  split
  · exact ⟨_, rfl⟩
  · cases h with
    | @run _ n' cv xs w ws ys status r env' hn' ho hcv hin hc hr he =>
      rw [hn] at hn'; cases hn'
      have := (gather_ok (S := S) (s := st.storage) (env := st.env) hw (fun i hi ho => hcv i.id ⟨⟨n, hn, i, hi, rfl⟩, ho⟩)).2 hin
      have hc : S.compute n.op st.world xs = .done w ws ys status := hc
      simp only [this, bind, Except.bind, hc]
      split
      · rename_i hd
        simp at hd
        simp [outcomeResult, hd] at hr
      · exact ⟨_, rfl⟩
    | @skip _ n' cv er hn' ho hcv hin =>
      rw [hn] at hn'; cases hn'
      have := (gather_ok (S := S) (s := st.storage) (env := st.env) hw (fun i hi ho => hcv i.id ⟨⟨n, hn, i, hi, rfl⟩, ho⟩)).2 hin
      simp only [this, bind, Except.bind]
      exact ⟨_, rfl⟩

/-- An evaluation returns if, in the order `L` of the traversal, every op can be executed after the ops before it, and all targets have values at the end. -/
theorem eval_ordered {S : Sem Op V E W} {g : Graph Op} (hw : WF g) (hac : Acyclic g) {targets : List Nat} (ht : ∀ t ∈ targets, t < g.nodes.length)
    (hnd : ∀ pre t mid post, targets = pre ++ t :: mid ++ t :: post → ¬ IsOp g t) {feeds : List (Feed V)} {env : List V} {w : W} {L : List Nat} (hL : Visits g [] targets.reverse L)
    (hnext : ∀ pre x post l s, L = pre ++ x :: post → l.map Prod.fst = pre → ExecList S g feeds (.start env w) l s → ∃ b s', ExecOne S g feeds s (x, b) s')
    (hret : ∀ l s, l.map Prod.fst = L → ExecList S g feeds (.start env w) l s → ∀ t ∈ targets, ∃ r, TargetReturns S g feeds s t r)
    {fuel : Nat} (hfuel : 2 * (targets.length + edgeCount g) ≤ fuel) : ∃ res, eval S g fuel targets feeds env w = some (.ok res) := by
  let P : EvalState V E W → Prop := fun st => Inv g targets st ∧ ExecList S g feeds (.start env w) st.log.reverse (toExec st) ∧ Works g (st.log.map Prod.fst).reverse st.stack L
  have hstep : ∀ (st st' : EvalState V E W) e rest, st.stack = e :: rest → P st → step S g feeds e { st with stack := rest } = .ok st' → P st' :=
    fun st st' e rest hstk hP hst => ⟨inv_step hw hstk hP.1 hst, execList_step hw hstk hP.1 hP.2.1 hst, step_works hw hac hstk hP.1 hP.2.2 hst⟩
  have h0 : P (initState targets env w) := by
    refine ⟨inv_init ht env w, ExecList.nil, ?_⟩
    have := Works.of_visits (s := []) hL .nil
    simpa [initState] using this
  obtain ⟨r, hl⟩ := loop_total (S := S) (feeds := feeds) hw hac fuel (initState targets env w : EvalState V E W) h0.1
    (initState_aboveDeps targets env w) (Nat.le_trans (potential_init targets env w) hfuel)
  unfold eval
  rw [hl]
  cases r with
  | error p =>
    exfalso
    obtain ⟨st, ⟨id, b⟩, rest, ⟨hi, hx, hW⟩, hs, hp⟩ := loop_error P hstep fuel _ h0 hl
    have hid := hi.stackNeeded (id, b) (by simp [hs])
    obtain ⟨n, hn⟩ : ∃ n, g.nodes[id]? = some n := ⟨_, List.getElem?_eq_getElem hid.1⟩
    simp only [step, access_ok.2 hn] at hp
    cases b with
    | false =>
      obtain ⟨cs, hcs⟩ := childrenToPush_total (s := st.storage) (is := n.incoming) (hw.closed _ _ hn)
      simp only [bind, Except.bind, hcs, Bool.false_eq_true, if_false] at hp
      cases hp
    | true =>
      have hv : ∃ st', visit S g feeds n id { st with stack := rest } = .ok st' := by
        rw [hs] at hW
        cases hW with
        | skip a _ =>
          refine ⟨{ st with stack := rest }, ?_⟩
          unfold visit
          rw [if_pos]
          rw [wouldNotVisit_iff hn]
          rcases a with a | a
          · exact .inr ((hi.stored id).2 (by simpa using a))
          · exact .inl a
        | run a b h =>
          obtain ⟨post, hpost⟩ := h.prefix
          obtain ⟨b, s', h1⟩ := hnext _ id post st.log.reverse (toExec st) (by rw [hpost, List.append_assoc]; rfl) (by rw [List.map_reverse]) hx
          exact visit_of_exec hw (st := { st with stack := rest }) hn h1
      obtain ⟨st', hv⟩ := hv
      simp only [bind, Except.bind, if_true, hv] at hp
      cases hp
  | ok st =>
    obtain ⟨⟨hi, hx, hW⟩, hs⟩ := loop_inv P hstep fuel _ st h0 hl
    rw [hs] at hW
    obtain ⟨rs, hrs⟩ := aggregate_total (S := S) (feeds := feeds) (env := st.env) (w := st.world) hw (ts := targets) (s := st.storage)
      (hret st.log.reverse _ (by rw [List.map_reverse]; cases hW; rfl) hx) hnd
    exact ⟨⟨rs, st.env, st.world, st.log.reverse⟩, by simp only [hrs]⟩

end Eval
end Verif
