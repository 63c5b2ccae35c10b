import Verif.Lemmas.Aliasing

/-! # Property theorems about views and memory: C10 -/

namespace Verif.Props
open Verif Verif.Spec Verif.Mem Relation
variable {Op V D E W : Type}

/-! ## A sample -/

/-- Sample ops: a variable, a constant, `x + y`, assignment to the first input, a view of the first input, an op with two outputs. -/
inductive AlOp where
  | var
  | const (v : Int)
  | add
  | assign
  | view
  | pair
deriving DecidableEq

/-- Their semantics on integers; the only projection is the identity. -/
def alSem : MSem AlOp Int Unit Unit Unit where
  compute
    | .const v, w, _ => .done w [] [.owned v] (.ok ())
    | .add, w, [x, y] => .done w [] [.owned (x.val + y.val)] (.ok ())
    | .assign, w, [_, y] => .done w [(0, y.val)] [.owned 0] (.ok ())
    | .view, w, [_] => .done w [] [.view 0 ()] (.ok ())
    | .pair, w, _ => .done w [] [.owned 1, .owned 2] (.ok ())
    | _, _, _ => .panic
  proj _ v := v
  shapeOf _ := []
  debug := true

/-- A node of the samples. -/
def alNode (op : AlOp) (incoming : List Incoming) (rank : Nat) (variableId : Option Nat := none) : Node AlOp :=
  ⟨op, incoming, rank, none, none, true, none, none, variableId⟩

/-- Tensor 3 is a view of (a view of) variable 0; tensor 5 overwrites the variable; tensor 6 depends on both. -/
def alGraph : Graph AlOp where
  nodes := [alNode .var [] 0 (some 0), alNode (.const 7) [] 0, alNode .view [⟨0, false, 0⟩] 1, alNode .view [⟨2, false, 0⟩] 2,
    alNode .view [⟨1, false, 0⟩] 1, alNode .assign [⟨0, true, 0⟩, ⟨4, false, 0⟩] 2, alNode .add [⟨3, false, 0⟩, ⟨5, false, 0⟩] 3]
  var2node := fun v => if v = 0 then some 0 else none

/-- Tensor 1 is a view of the second output of tensor 0. -/
def alPair : Graph AlOp where
  nodes := [alNode .pair [] 0, alNode .view [⟨0, false, 1⟩] 1]
  var2node := fun _ => none

/-! ## C10 Computed results never alias live variables -/

/-- **C10** Every result is a snapshot: whatever a tensor's outputs were when its op had run, they are the same (and readable, and not memory of a
variable) in every later state of the evaluation, whatever variables were written in between. -/
theorem C10_snapshot (M : MSem Op V D E W) (g : Graph Op) (feeds : List (Feed V)) (targets : List Nat) (env : List V) (w : W)
    (st1 st2 : MState V D E W) (h1 : ReflTransGen (OneStep M g feeds) (initState targets env w) st1)
    (h2 : ReflTransGen (OneStep M g feeds) st1 st2) (id : Nat) (ss : List (Slot V D)) (hs : st1.storage id = some (.ok ss)) :
    st2.storage id = some (.ok ss) ∧
    ∀ (j : Nat) s, ss[j]? = some s → (∀ vid, (s.place id j).loc ≠ .var vid) ∧ ∃ v, ReadsOutput M st1 id j v ∧ ReadsOutput M st2 id j v := by
  obtain ⟨es, _, hsim⟩ := sim_reach (sim_init targets env w) h1
  have hframe := reach_frame h2
  have hs2 : st2.storage id = some (.ok ss) := by rw [(hframe id (by rw [hs]; simp)).1, hs]
  refine ⟨hs2, ?_⟩
  intro j s hj
  have he := hsim.entries id
  rw [hs] at he
  match hv : es.storage id with
  | none => rw [hv] at he; exact he.elim
  | some (.error e) => rw [hv] at he; exact he.elim
  | some (.ok vs) =>
    rw [hv] at he
    have hlt : j < vs.length := by have := (List.getElem?_eq_some_iff.1 hj).1; rw [← he.1]; exact this
    obtain ⟨k1, k2, _⟩ := he.2 j s _ hj (List.getElem?_eq_getElem hlt)
    refine ⟨k1, vs[j], ⟨ss, s, hs, hj, k2⟩, ⟨ss, s, hs2, hj, ?_⟩⟩
    exact read_heap k1 (fun a b hab => (hframe a (hsim.alloc a b hab)).2 b) k2

/-- After 4 iterations tensor 3 is computed from the variable, which is 3; after 12 the variable is 7. -/
example : ∃ st1 st2 : MState Int Unit Unit Unit, ReflTransGen (OneStep alSem alGraph []) (initState [6, 3] [3] ()) st1 ∧
    ReflTransGen (OneStep alSem alGraph []) st1 st2 ∧ st1.env = [3] ∧ st2.env = [7] ∧
    ∃ ss, st1.storage 3 = some (.ok ss) ∧ ReadsOutput alSem st2 3 0 3 := by
  obtain ⟨st1, h1⟩ : ∃ st, steps alSem alGraph [] 4 (initState [6, 3] [3] ()) = some st := ⟨_, rfl⟩
  obtain ⟨st2, h2⟩ : ∃ st, steps alSem alGraph [] 8 st1 = some st := by cases h1; exact ⟨_, rfl⟩
  refine ⟨st1, st2, steps_reach _ h1, steps_reach _ h2, ?_⟩
  cases h1
  cases h2
  exact ⟨rfl, rfl, _, rfl, _, _, rfl, rfl, rfl⟩

/-- **C10** In every state of the evaluation the results are those of the evaluation in which every output is copied when its op has run. -/
theorem C10_states (M : MSem Op V D E W) (g : Graph Op) (feeds : List (Feed V)) (targets : List Nat) (env : List V) (w : W)
    (st : MState V D E W) (h : ReflTransGen (OneStep M g feeds) (initState targets env w) st) :
    ∃ es, ReflTransGen (ValueStep (valueSem M) g feeds) (Eval.initState targets env w) es ∧ SameResults M st es := by
  obtain ⟨es, h1, h2⟩ := sim_reach (sim_init targets env w) h
  exact ⟨es, h1, h2.same⟩

/-- **C10** No op is ever called with a view of freed memory. -/
theorem C10_no_dangling_input (M : MSem Op V D E W) (g : Graph Op) (feeds : List (Feed V)) (targets : List Nat) (env : List V) (w : W) (fuel : Nat) :
    Mem.loop M g feeds fuel (initState targets env w) ≠ some (.error .dangling) := by
  rcases sim_loop (feeds := feeds) fuel (sim_init (M := M) (g := g) targets env w) with ⟨h, _⟩ | ⟨r, r', h1, h2, h3⟩
  · rw [h]; simp
  · rw [h1]
    rintro hc
    cases hc
    cases r' <;> exact h3

/-- **C10** (partial: not if a target may be a view of a further output of another target, see `C10_siblings_violated`) The evaluation returns what
the evaluation in which every output is copied returns: the same results, variables, executed ops and panics. In particular nothing that
is returned was freed. -/
theorem C10_equivalence_partial (M : MSem Op V D E W) (g : Graph Op) (feeds : List (Feed V)) (targets : List Nat) (env : List V) (w : W) (fuel : Nat)
    (hal : ∀ t ∈ targets, ∀ t' ∈ targets, t ≠ t' → ∀ k, k ≠ 0 → ¬ MayAlias M g t' 0 t k) :
    Mem.eval M g fuel targets feeds env w = (Eval.eval (valueSem M) g fuel targets feeds env w).map liftPanic := by
  unfold Mem.eval Eval.eval
  rcases sim_loop (feeds := feeds) fuel (sim_init (M := M) (g := g) targets env w) with ⟨h, h'⟩ | ⟨r, r', h1, h2, h3⟩
  · rw [h, h']; rfl
  · rw [h1, h2]
    match r, r', h3 with
    | .error (.panic p), .error p', h3 => cases h3; rfl
    | .ok st, .ok es, h3 =>
      have hagg := sim_aggregate (feeds := feeds) (env := st.env) targets targets [] st.storage st.heap es.storage (fun _ h => h) (by simp) hal (by simp)
        (fun t => (h3.same.2.2.2.2 t).1) ⟨st.heap, h3.entries, fun a b hab => absurd rfl hab⟩
      simp only
      rw [← h3.env, ← h3.log, ← h3.world]
      match ha : aggregate M g feeds st.env targets st.storage st.heap, hb : Eval.aggregate (valueSem M) g feeds st.env targets es.storage with
      | .ok a, .ok b => rw [ha, hb] at hagg; cases hagg; rfl
      | .error (.panic p), .error p' => rw [ha, hb] at hagg; cases hagg; rfl
      | .error .dangling, .error p' => rw [ha, hb] at hagg; exact hagg.elim
      | .error .dangling, .ok b => rw [ha, hb] at hagg; exact hagg.elim
      | .error (.panic p), .ok b => rw [ha, hb] at hagg; exact hagg.elim
      | .ok a, .error p' => rw [ha, hb] at hagg; exact hagg.elim

example : (∀ t ∈ [5, 6, 3], ∀ t' ∈ [5, 6, 3], t ≠ t' → ∀ k, k ≠ 0 → ¬ MayAlias alSem alGraph t' 0 t k) ∧ MayAlias alSem alGraph 3 0 2 0 :=
  ⟨fun _ _ _ _ _ k hk h => hk (alias_first (by decide) h),
    .direct (k := 0) (i := ⟨2, false, 0⟩) rfl rfl ⟨(), [⟨.nonVariable, 3⟩], (), [], _, _, (), rfl, by simp, rfl⟩⟩

/-- The sample evaluated: tensor 6 reads the old value 3 through two views although the variable was set to 7 before. -/
example : Mem.eval alSem alGraph 30 [5, 6, 3] [] [3] () =
    some (.ok ⟨[.ok 0, .ok 3, .ok 3], [7], (), [(2, true), (3, true), (1, true), (4, true), (5, true), (6, true)]⟩) := rfl

/-- **C10** For a single target the evaluation returns what the evaluation in which every output is copied returns. -/
theorem C10_single_target (M : MSem Op V D E W) (g : Graph Op) (feeds : List (Feed V)) (t : Nat) (env : List V) (w : W) (fuel : Nat) :
    Mem.eval M g fuel [t] feeds env w = (Eval.eval (valueSem M) g fuel [t] feeds env w).map liftPanic :=
  C10_equivalence_partial M g feeds [t] env w fuel (by
    intro a ha b hb hab
    rw [List.mem_singleton] at ha hb
    exact absurd (ha.trans hb.symm) hab)

/-- **C10** fails for targets of which one is a view of a further output of another: after the first was returned, its other outputs are freed and
the second is read from freed memory. -/
theorem C10_siblings_violated : ∃ (g : Graph AlOp) (targets : List Nat) (fuel : Nat),
    Mem.eval alSem g fuel targets [] [] () = some (.error .dangling) ∧
    Eval.eval (valueSem alSem) g fuel targets [] [] () = some (.ok ⟨[.ok 1, .ok 2], [], (), [(0, true), (1, true)]⟩) :=
  ⟨alPair, [0, 1], 10, rfl, rfl⟩

end Verif.Props
