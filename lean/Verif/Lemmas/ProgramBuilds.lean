import Verif.Lemmas.ProgramSound
import Verif.Props.Eval

/-! Evaluation of the tensors of a program and of its gradients. -/

namespace Verif.Prog
open Verif Verif.Graph Verif.Nd Verif.Hint Verif.Gradient Verif.Spec Verif.Eval

/-! ## Evaluation -/

theorem progSem_computes (op : POp) : Computes progSem op op.sem := by
  intro w xs
  simp only [progSem, POp.sem]
  split <;> simp_all [outcomeResult]

theorem prog_oldRead {g : Graph POp} {F : List (Feed (Arr ℝ))} {N : List (Arr ℝ)} {X : List Nat} {p : Nat → Arr ℝ} (hP : ProgGraph g X F N p) : OldRead g := by
  intro k n hn i hi
  refine ⟨hP.older k n hn i hi, ?_⟩
  cases hP.node k n hn with
  | leaf _ h _ => rw [h] at hi; cases hi
  | app ha _ _ _ _ =>
    obtain ⟨n', a, _, b, _⟩ := ha
    rw [hn] at a; cases a
    rw [b] at hi
    exact mem_inputs i hi

theorem prog_reach {l : List Stmt} {g : Graph POp} {ts : List Nat} (hl : runProgram l = .ok (g, ts)) : Props.Reachable hintOps.toOps g :=
  (constructAll_ok hinv_empty (fun _ h => h) hl).2.1.reach

/-- A tensor with a value evaluates to it. -/
theorem evaluates {g : Graph POp} (hr : Props.Reachable hintOps.toOps g) (ho : OldRead g) {F : List (Feed (Arr ℝ))} {N : List (Arr ℝ)} {t : Nat} {v : Arr ℝ}
    (h : Evals (setting F N) g t v) :
    ∃ fuel0, ∀ fuel, fuel0 ≤ fuel → ∃ res, eval progSem g fuel [t] F N () = some (.ok res) ∧ res.results = [.ok v] := by
  refine Props.C06_total hintOps.toOps progSem g [t] F N () POp.sem [.ok v] hr ho.acyclic (by intro t' ht'; rw [List.mem_singleton.1 ht']; exact evals_lt h)
    (fun a n _ _ => progSem_computes n.op) ?_ ?_ (.cons h.1 .nil)
  · rintro a vid _ ⟨n, hn, i, hi, hm, _⟩
    rw [(ho a n hn i hi).2] at hm
    cases hm
  · intro pre t' mid post e
    have := congrArg List.length e
    simp at this
    omega

/-- Several tensors evaluated together. -/
theorem evaluates_all {g : Graph POp} (hr : Props.Reachable hintOps.toOps g) (ho : OldRead g) {F : List (Feed (Arr ℝ))} {N : List (Arr ℝ)} {ts : List Nat}
    {vs : List (Arr ℝ)} (hnd : ts.Nodup) (h : List.Forall₂ (Evals (setting F N) g) ts vs) :
    ∃ fuel0, ∀ fuel, fuel0 ≤ fuel → ∃ res, eval progSem g fuel ts F N () = some (.ok res) ∧ res.results = vs.map .ok := by
  have hlt : ∀ t ∈ ts, t < g.nodes.length := by
    clear hnd
    induction h with
    | nil => simp
    | cons h1 _ ih =>
      intro t ht
      rcases List.mem_cons.1 ht with rfl | ht
      · exact evals_lt h1
      · exact ih t ht
  refine Props.C06_total hintOps.toOps progSem g ts F N () POp.sem (vs.map .ok) hr ho.acyclic hlt
    (fun a n _ _ => progSem_computes n.op) ?_ ?_ (List.forall₂_map_right_iff.2 (h.imp fun _ _ h => h.1))
  · rintro a vid _ ⟨n, hn, i, hi, hm, _⟩
    rw [(ho a n hn i hi).2] at hm
    cases hm
  · intro pre t' mid post e
    rw [e] at hnd
    simp [List.nodup_append, List.nodup_cons] at hnd

/-! ## Changing one variable -/

theorem nudge_moves (a : Arr ℝ) (i : List Nat) : Moves (nudge a i) a (fun j => if j = i then 1 else 0) := by
  refine ⟨?_, fun _ => rfl, fun j _ => ?_⟩
  · simp [nudge]
  · by_cases h : j = i
    · simp only [nudge, h, if_true]
      simpa using (hasDerivAt_id' (0 : ℝ)).const_add (a.get i)
    · simp only [nudge, h, if_false]
      exact hasDerivAt_const _ _

theorem variable_evals {g : Graph POp} {x vid : Nat} (hx : IsVariable g x vid) {F : List (Feed (Arr ℝ))} {N : List (Arr ℝ)} {v : Arr ℝ}
    (h : Evals (setting F N) g x v) : N[vid]? = some v ∧ ∀ w : Arr ℝ, Evals (setting F (N.set vid w)) g x w := by
  obtain ⟨nd, hn, hv⟩ := hx
  have hN : N[vid]? = some v := by
    cases h.1 with
    | placeholder hn' h' _ => rw [hn] at hn'; cases hn'; rw [hv] at h'; cases h'
    | variable_ hn' h' ha => rw [hn] at hn'; cases hn'; rw [hv] at h'; cases h'; exact ha
    | result hm _ => cases hm with
      | run _ ho _ _ _ =>
        obtain ⟨n', hn', _, h'⟩ := ho
        rw [hn] at hn'; cases hn'; rw [hv] at h'; cases h'
  refine ⟨hN, fun w => ⟨.variable_ hn hv ?_, h.2⟩⟩
  show (N.set vid w)[vid]? = some w
  rw [List.getElem?_set_self (List.getElem?_eq_some_iff.1 hN).1]

theorem other_evals {g : Graph POp} (hw : WF g) {x n vid : Nat} (hx : IsVariable g x vid) (hne : n ≠ x) (hl : IsLeaf g n) {F : List (Feed (Arr ℝ))}
    {N : List (Arr ℝ)} {v : Arr ℝ} (h : Evals (setting F N) g n v) (w : Arr ℝ) : Evals (setting F (N.set vid w)) g n v := by
  refine ⟨?_, h.2⟩
  cases h.1 with
  | placeholder hn h1 h2 => exact .placeholder hn h1 h2
  | @variable_ nd vid' a hn hv ha =>
    refine .variable_ hn hv ?_
    have : vid ≠ vid' := by
      rintro rfl
      have h1 := (hw.cache vid x).2 hx
      have h2 := (hw.cache vid n).2 ⟨nd, hn, hv⟩
      rw [h1] at h2
      exact hne (Option.some.inj h2).symm
    show (N.set vid w)[vid']? = some v
    rw [List.getElem?_set_ne this]
    exact ha
  | result hm _ => cases hm with
    | run _ ho _ _ _ =>
      obtain ⟨nd, hn, h1, h2⟩ := ho
      obtain ⟨nd', hn', h3⟩ := hl
      rw [hn] at hn'; cases hn'
      rcases h3 with h3 | h3
      · exact absurd h1 h3
      · exact absurd h2 h3

theorem inner_single {s : List Nat} {i : List Nat} (hi : InB i s) (a : List Nat → ℝ) : Prog.inner s a (fun j => if j = i then 1 else 0) = a i := by
  rw [Prog.inner, Finset.sum_eq_single i]
  · simp
  · intro j _ hj; simp [hj]
  · intro h; exact absurd (mem_idxs.2 hi) h

end Verif.Prog
