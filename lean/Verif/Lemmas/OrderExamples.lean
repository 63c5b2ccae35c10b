import Verif.Lemmas.OrderCheck
import Verif.Props.UpdateStep

/-! Checks of the hypotheses in the examples about the order of execution. -/

namespace Verif.Props
open Verif Verif.Spec Verif.Eval Verif.Graph Verif.Opt Verif.OptState Verif.Nd Verif.Gradient Verif.Prog Relation

/-- The meaning of the ops of the examples that do not write. -/
def ordMeaning : UpdOp → List (OpInput (Arr ℚ)) → Option (Except Unit (List (Arr ℚ)))
  | .one, _ => some (.ok [ofFn [] (fun _ => 1)])
  | op, xs => updMeaning op xs

/-- Only the tensors `us` write, and apart from the tensors `skip` all needed ops are `one` and `mul`. -/
def ordOpsB (g : Graph UpdOp) (targets us skip : List Nat) : Bool :=
  (neededB g targets).all fun a => (us.contains a || (writesB g a).isEmpty) && (skip.contains a || match g.nodes[a]? with
    | some n => n.op == .one || n.op == .mul
    | none => true)

theorem ordOps_of {g : Graph UpdOp} (hold : Older g) {targets us skip : List Nat} (h : ordOpsB g targets us skip = true) :
    (∀ a n, Needed g targets a → a ∉ skip → g.nodes[a]? = some n → Computes updSem n.op (ordMeaning n.op)) ∧ ∀ a vid, Needed g targets a → MayWrite g a vid → a ∈ us := by
  refine ⟨fun a n ha hna hn => ?_, fun a vid ha hm => ?_⟩
  · have h1 := List.all_eq_true.1 h a ((neededB_iff hold).2 ha)
    simp only [hn, Bool.or_eq_true, Bool.and_eq_true, List.contains_iff_mem] at h1
    have : n.op = .one ∨ n.op = .mul := by simpa using h1.2.resolve_left hna
    rcases this with e | e
    · rw [e]; intro w xs; rfl
    · rw [e]
      intro w xs
      match xs with
      | [] => rfl
      | [_] => rfl
      | [_, _] => rfl
      | _ :: _ :: _ :: _ => rfl
  · have h1 := List.all_eq_true.1 h a ((neededB_iff hold).2 ha)
    simp only [Bool.or_eq_true, Bool.and_eq_true, List.contains_iff_mem] at h1
    rcases h1.1 with h1 | h1
    · exact h1
    · have := writesB_of hm
      rw [List.isEmpty_iff.1 h1] at this
      cases this

/-- The ops that `add_n` uses, for the examples. -/
def updGrad : GradOps UpdOp := ⟨.addN, .const, .const, .const, .one, fun _ => .const, fun _ _ _ _ => .error .opGrad⟩

end Verif.Props
