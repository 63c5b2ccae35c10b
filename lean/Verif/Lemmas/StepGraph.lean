import Verif.Lemmas.OrderedStep
import Verif.Lemmas.ProgramMake
import Verif.Lemmas.UpdateStep

/-! One evaluation of a loss together with the tensor made by `get_update_op`. -/

namespace Verif.Eval
open Verif Verif.Spec Verif.Graph Verif.Opt Verif.Props Verif.Gradient Relation
variable {Op V E W : Type}

theorem builds_opt {O : Ops Op} {g g' : Graph Op} (h : Builds g g') : Opt.Grows O g g' := by
  induction h with
  | refl => exact .refl g
  | @step g1 g2 b op t _ a hb hc _ _ ih =>
    refine ih.trans ⟨[.build b op], [t], ?_, by simp [NoDependsOn]⟩
    have e : ({ b with variableId := none, placeholderName := none } : Builder) = b := by cases b; simp_all
    simp [execAll, exec, e, a, bind, Except.bind]

theorem builds_acyclic {g g' : Graph Op} (hc : Closed g) (hac : Acyclic g) (h : Builds g g') : Acyclic g' := by
  have hnode : ∀ (a : Nat) (n : Node Op), g'.nodes[a]? = some n → (a < g.nodes.length ∧ g.nodes[a]? = some n) ∨ (g.nodes.length ≤ a ∧ ∀ i ∈ n.incoming, i.id < a) := by
    induction h with
    | refl => intro a n hn; exact .inl ⟨(List.getElem?_eq_some_iff.1 hn).1, hn⟩
    | @step g1 g2 b op t hB a _ _ _ _ ih =>
      intro k n hk
      obtain ⟨_, _, r, hr, e⟩ := build_new a
      rw [e] at hk
      have hle : g.nodes.length ≤ g1.nodes.length := (builds_opt (O := ⟨op, op, op, fun _ => op⟩) hB).size
      rcases Nat.lt_trichotomy k g1.nodes.length with h1 | h1 | h1
      · rw [List.getElem?_append_left h1] at hk
        exact ih k n hk
      · rw [h1, List.getElem?_append_right (Nat.le_refl _)] at hk
        simp at hk
        subst hk
        refine .inr ⟨by omega, fun i hi => ?_⟩
        obtain ⟨m, hm, _⟩ := buildRank_lt hr i hi
        have := (List.getElem?_eq_some_iff.1 hm).1
        omega
      · rw [List.getElem?_eq_none (by simp; omega)] at hk; cases hk
  have hstep : ∀ {a b : Nat}, DependsDirectly g' a b → (a < g.nodes.length ∧ b < g.nodes.length ∧ DependsDirectly g a b) ∨ (g.nodes.length ≤ a ∧ b < a) := by
    rintro a b ⟨n, hn, i, hi, rfl⟩
    rcases hnode a n hn with ⟨h1, h2⟩ | ⟨h1, h2⟩
    · exact .inl ⟨h1, hc a n h2 i hi, n, h2, i, hi, rfl⟩
    · exact .inr ⟨h1, h2 i hi⟩
  have hpath : ∀ {a b : Nat}, TransGen (DependsDirectly g') a b → (a < g.nodes.length ∧ b < g.nodes.length ∧ TransGen (DependsDirectly g) a b) ∨ (g.nodes.length ≤ a ∧ b < a) := by
    intro a b hab
    induction hab with
    | single h1 =>
      rcases hstep h1 with ⟨p, q, r⟩ | h
      · exact .inl ⟨p, q, .single r⟩
      · exact .inr h
    | tail _ h1 ih =>
      rcases ih with ⟨p, q, r⟩ | ⟨p, q⟩ <;> rcases hstep h1 with ⟨p', q', r'⟩ | ⟨p', q'⟩
      · exact .inl ⟨p, q', r.tail r'⟩
      · omega
      · exact .inr ⟨p, by omega⟩
      · exact .inr ⟨p, by omega⟩
  intro a ha
  rcases hpath ha with ⟨_, _, h1⟩ | ⟨_, h1⟩
  · exact hac a h1
  · omega

/-- The graph `g'` arises from `g` by adding the update tensors `us` for the pairs (parameter, gradient) `pgs` and the tensor `up` of `get_update_op`. -/
structure StepGraph (O : Ops Op) (addN : Op) (o : Op) (St : Nat → List Nat → Prop) (g g' : Graph Op) (pgs : List (Nat × Nat)) (us : List Nat) (up : Nat) : Prop where
  grows : Opt.Grows O g g'
  acyclic : Acyclic g'
  nodup : us.Nodup
  new : ∀ u ∈ us, g.nodes.length ≤ u
  built : List.Forall₂ (fun (pg : Nat × Nat) u => ∃ vid svs, VarTensor g pg.1 vid ∧ St vid svs ∧ IsUpdate g' o vid svs u { id := pg.2 }) pgs us
  up : us = [up] ∨ (g.nodes.length ≤ up ∧ up ∉ us ∧ us ≠ [] ∧ IsApp g' up addN us)

theorem stepGraph_of {O : Ops Op} {G : GradOps Op} {o : Op} {St : Nat → List Nat → Prop} {g g1 g' : Graph Op} {pgs : List (Nat × Nat)} {us : List Nat} {up : Nat}
    (hw : WF g) (hac : Acyclic g) (hgr : ∀ pg ∈ pgs, pg.2 < g.nodes.length) (h : UpdatesBuilt O o St g g1 pgs us)
    (hup : updateOp G g1 us = some (.ok (g', up))) : StepGraph O G.addN o St g g' pgs us up := by
  have hw1 := h.grows.wf hw
  have hac1 := h.acyclic hw hac hgr
  cases us with
  | nil => cases hup
  | cons u us =>
    have hup : addN G g1 u us = .ok (g', up) := by simpa [updateOp] using hup
    have hB : Builds g1 g' := addN_builds hup
    have hg' := builds_opt (O := O) hB
    refine ⟨h.grows.trans hg', builds_acyclic hw1.closed hac1 hB, h.nodup, fun x hx => (h.new x hx).1, h.built.imp fun pg x ⟨v, svs, a, b, c⟩ => ⟨v, svs, a, b, isUpdate_grows hg' c⟩, ?_⟩
    cases us with
    | nil => simp only [addN] at hup; cases hup; exact .inl rfl
    | cons v us =>
      obtain ⟨_, h2, h3⟩ := addN_new hup
      refine .inr ⟨le_trans h.grows.size h2, fun hm => ?_, by simp, h3⟩
      have := (h.new up hm).2
      omega

end Verif.Eval
