import Verif.Lemmas.GraphHistory

/-! The graphs that can be built, and their invariants. -/

namespace Verif.Props
open Verif Verif.Spec Verif.Graph
variable {Op : Type}

/-- Graphs that arise in the life of one context, starting from the empty graph. -/
inductive Reachable (O : Ops Op) : Graph Op → Prop where
  | init : Reachable O Graph.empty
  | cmd {g g' : Graph Op} {c : Cmd Op} {t : Nat} : Reachable O g → g.exec O c = .ok (g', t) → Reachable O g'
  | clear {g : Graph Op} : Reachable O g → Reachable O g.clear

theorem Reachable.wf {O : Ops Op} {g : Graph Op} (h : Reachable O g) : WF g := by
  induction h with
  | init => exact wf_empty
  | cmd _ hx ih => exact ih.exec hx
  | clear _ _ => exact wf_empty

theorem Reachable.all {O : Ops Op} {cs : List (Cmd Op)} : ∀ {g g' : Graph Op} {ts : List Nat},
    Reachable O g → g.execAll O cs = .ok (g', ts) → Reachable O g' := by
  induction cs with
  | nil => intro g g' ts hg h; rw [(execAll_nil.1 h).1]; exact hg
  | cons c cs ih =>
    intro g g' ts hg h
    obtain ⟨g1, t, ts', h1, h2, _⟩ := execAll_cons.1 h
    exact ih (hg.cmd h1) h2

end Verif.Props
